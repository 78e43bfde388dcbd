import Verif.Lemmas.AdsrNotes

/-!
# When the events of an ADSR envelope take effect in a session (C88)
-/

namespace Rawdio
namespace AdsrSchedule

/-- C88: in a session every event that is sent to an ADSR envelope takes effect once, at the frame of its time or, if that
has passed, at the next frame that is rendered. The gains are those of one envelope that goes from frame to frame and
takes each event at its frame, wherever blocks and process calls end. -/
theorem C88_schedule {P : Type} (mf sr : Nat) (hsr : 0 < sr) (hlt : sr < 2 ^ 33)
    (changes : Nat → List (Id × MixedRequest)) (ks : List (Call ℝ P MixedRequest)) (es : List (ChainEvent MixedRequest))
    (h : ChainHistory mf sr changes ks es) (i : Id) :
    ∃ schedule, AdsrScheduled sr (adsrSent changes i ks) schedule ∧
      ∀ F < framesIn ks, NodeKind.envelope sr i es F =
        (adsrValues (schedule.map fun x => (x.1, x.2.2.eventType)) 0 (framesIn ks)
          (AdsrEnvelope.new sr 0 0 (Level.fromDb 0) 0)).2.getD F 0 :=
  session hsr hlt h i

/-- C88: notes that are requested at the start, with the times and the level of the envelope, and that leave time for
it: each starts and ends at the frame of its time. It rises to 1 in the attack time, falls to the sustain level in the
decay time, stays there until its end, fades to silence in the release time and is silent until the next note. -/
theorem C88_notes {P : Type} (mf sr : Nat) (hsr : 0 < sr) (hle : sr ≤ 2 ^ 30) (attack decay : ℝ) (sustain : Level)
    (release : ℝ) (hs0 : 0 < sustain.linear) (hs1 : sustain.linear ≤ 1) (sequence : ℕ → ℕ) (hseq : StrictMono sequence)
    (notes : List (Int × Int)) (hn : SpacedNotes sr (stageFrames attack sr + stageFrames decay sr) (stageFrames release sr) 0 notes)
    (changes : Nat → List (Id × MixedRequest)) (i : Id)
    (hown : ∀ j, (changes j).filterMap (fun x => if x.1 = i then x.2.adsr? else none) =
      if j = 0 then adsrNotes sequence attack decay sustain release notes else [])
    (ks : List (Call ℝ P MixedRequest)) (hks : ks ≠ []) (es : List (ChainEvent MixedRequest))
    (h : ChainHistory mf sr changes ks es) :
    ∃ frames gain, List.Forall₂ (fun x y => AtFrame sr 0 x.1 y.1 ∧ AtFrame sr 0 x.2 y.2) notes frames ∧
      (∀ F, (∀ x ∈ frames.head?, F < x.1) → gain F = 0) ∧
      NotesShape gain (stageFrames attack sr) (stageFrames decay sr) (stageFrames release sr) sustain.linear frames ∧
      ∀ F < framesIn ks, NodeKind.envelope sr i es F = gain F := by
  obtain ⟨schedule, h1, h2⟩ := session hsr (by omega) h i
  have hown' : ∀ j (m : Nat), (changes j).filterMap (fun x => if x.1 = i then x.2.adsr?.map fun e => (m, e) else none) =
      (if j = 0 then adsrNotes sequence attack decay sustain release notes else []).map fun e => (m, e) := by
    intro j m
    rw [← hown j, List.map_filterMap]
    congr 1
    funext x
    by_cases hx : x.1 = i
    · rw [if_pos hx, if_pos hx]
    · rw [if_neg hx, if_neg hx]
      rfl
  have hsent : adsrSent changes i ks = (adsrNotes sequence attack decay sustain release notes).map fun e => (0, e) := by
    obtain ⟨n, hl⟩ : ∃ n, ks.length = n + 1 := ⟨ks.length - 1, by have := List.length_pos_iff.mpr hks; omega⟩
    rw [adsrSent, hl, List.range_succ_eq_map, List.flatMap_cons, List.flatMap_map, hown', List.flatMap_eq_nil_iff.mpr]
    · simp [framesIn]
    · intro j _
      rw [hown']
      simp
  rw [hsent] at h1
  obtain ⟨frames, gain, g1, g2, g3, g4⟩ := notes_gain hsr hle hs0 hs1 hseq notes hn h1
  exact ⟨frames, gain, g1, g2, g3, fun F hF => (h2 F hF).trans (g4 _ F hF)⟩

/-! ### An example -/

/-- A call of 24 frames, for examples. -/
def adsrCall : Call ℝ MixedNode MixedRequest :=
  ⟨[], .owned (List.replicate 24 0) 1 24 8, .owned (List.replicate 24 0) 1 24 8, fun _ => Env.plain⟩

/-- A session of one call of 24 frames with a rate of 8 Hz, for examples. -/
theorem adsrSession (cs : List (Id × MixedRequest)) : ChainHistory 32 8 (fun j => if j = 0 then cs else []) [adsrCall]
    ([] ++ cs.map (fun x => .change x.1 x.2) ++ [(Timestamp.incrementedBySamples 0 0 8, 24)].map fun b => .block b.1 b.2) :=
  .snoc (ks := []) adsrCall [(Timestamp.incrementedBySamples 0 0 8, 24)] .nil ⟨0, [(0, 24)], by
    intro u; simp [framesIn], ⟨rfl, by norm_num, by norm_num, by simp [Buf.frameCount, adsrCall], rfl⟩, rfl⟩

theorem stageFrames_example : stageFrames (1 / 4) 8 = 2 := by
  norm_num [stageFrames]

/-- A note of a second and a note of a second and a half. -/
example : ∃ frames gain, List.Forall₂ (fun x y => AtFrame 8 0 x.1 y.1 ∧ AtFrame 8 0 x.2 y.2)
      [((0 : Int), (2 ^ 32 : Int)), (3 * 2 ^ 31, 3 * 2 ^ 32)] frames ∧
    (∀ F, (∀ x ∈ frames.head?, F < x.1) → gain F = 0) ∧ NotesShape gain 2 2 2 (1 / 2) frames ∧
    ∀ F < 24, NodeKind.envelope 8 1 ([] ++ ((adsrNotes id (1 / 4) (1 / 4) ⟨1 / 2⟩ (1 / 4)
      [((0 : Int), (2 ^ 32 : Int)), (3 * 2 ^ 31, 3 * 2 ^ 32)]).map fun e => ((1 : Id), MixedRequest.adsr e)).map
        (fun x => ChainEvent.change x.1 x.2) ++
        [(Timestamp.incrementedBySamples 0 0 8, 24)].map fun b => ChainEvent.block b.1 b.2) F = gain F := by
  have h := C88_notes 32 8 (by norm_num) (by norm_num) (1 / 4) (1 / 4) ⟨1 / 2⟩ (1 / 4) (by norm_num) (by norm_num) id strictMono_id
    [((0 : Int), (2 ^ 32 : Int)), (3 * 2 ^ 31, 3 * 2 ^ 32)] (by
      rw [stageFrames_example]
      norm_num [SpacedNotes]
      intro a b h
      cases h)
    (fun j => if j = 0 then (adsrNotes id (1 / 4) (1 / 4) ⟨1 / 2⟩ (1 / 4)
      [((0 : Int), (2 ^ 32 : Int)), (3 * 2 ^ 31, 3 * 2 ^ 32)]).map fun e => ((1 : Id), MixedRequest.adsr e) else []) 1 (by
      intro j
      by_cases hj : j = 0
      · subst hj
        rw [if_pos rfl, if_pos rfl, List.filterMap_map]
        exact List.filterMap_some
      · rw [if_neg hj, if_neg hj]
        rfl) _ (by simp) _ (adsrSession _)
  rw [stageFrames_example] at h
  simpa [framesIn, adsrCall, Buf.frameCount] using h

/-- An event that comes too late: a note that starts before the call in which it is sent. -/
example : ∃ schedule, AdsrScheduled 8 [(0, ⟨0, -(2 ^ 32), .noteOn⟩)] schedule ∧
    ∀ F < 24, NodeKind.envelope 8 1 ([] ++ [((1 : Id), MixedRequest.adsr ⟨0, -(2 ^ 32), .noteOn⟩)].map
        (fun x => ChainEvent.change x.1 x.2) ++
        [(Timestamp.incrementedBySamples 0 0 8, 24)].map fun b => ChainEvent.block b.1 b.2) F =
      (adsrValues (schedule.map fun x => (x.1, x.2.2.eventType)) 0 24
        (AdsrEnvelope.new 8 0 0 (Level.fromDb 0) 0)).2.getD F 0 := by
  have h := C88_schedule 32 8 (by norm_num) (by norm_num) _ _ _
    (adsrSession [((1 : Id), MixedRequest.adsr ⟨0, -(2 ^ 32), .noteOn⟩)]) 1
  simpa [framesIn, adsrCall, Buf.frameCount, adsrSent, MixedRequest.adsr?] using h

end AdsrSchedule
end Rawdio
