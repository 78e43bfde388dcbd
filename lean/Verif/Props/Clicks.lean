import Verif.Lemmas.Clicks
import Verif.Lemmas.Sets
import Verif.Lemmas.MixedHistory
import Verif.Props.AdsrSchedule

/-!
# Clicks, and parameters that are set again and again (C94)

The requests are made while the engine runs, before any process calls.
-/

namespace Rawdio
namespace Clicks

open AdsrSchedule

/-- C94: notes of an envelope with sustain level 0 that are never ended, requested before any process calls and with time for
attack and decay between them: each starts at the frame of its time, or at the first frame after it is requested if that is
later, rises to 1 in the attack time, falls to silence in the decay time, and there is silence until the next. -/
theorem C94_clicks {P : Type} (mf sr : Nat) (hsr : 0 < sr) (hle : sr ≤ 2 ^ 30) (attack decay : ℝ) (sequence : ℕ → ℕ)
    (hseq : StrictMono sequence) (ons : ℕ → List (Int × ℕ)) (changes : Nat → List (Id × MixedRequest)) (i : Id)
    (hown : ∀ j, (changes j).filterMap (fun x => if x.1 = i then x.2.adsr? else none) =
      (if j = 0 then settings sequence attack decay else []) ++ (ons j).map fun x => ⟨x.2, x.1, .noteOn⟩)
    (ks : List (Call ℝ P MixedRequest)) (hks : ks ≠ []) (es : List (ChainEvent MixedRequest))
    (h : ChainHistory mf sr changes ks es)
    (hnum : (sequence 2 :: (requested ons ks).map Timed.what).Pairwise (· < ·))
    (h0 : ∀ x ∈ requested ons ks, 0 ≤ x.time) (ht : (requested ons ks).Pairwise fun x y => x.time ≤ y.time)
    (hsp : Spaced sr (stageFrames attack sr + stageFrames decay sr + 2) (requested ons ks)) :
    ∃ frames gain, List.Forall₂ (fun x g => AtFrame sr x.first x.time g) (requested ons ks) frames ∧
      (∀ F, (∀ x ∈ frames.head?, F < x) → gain F = 0) ∧
      Shapes gain (stageFrames attack sr) (stageFrames decay sr) frames ∧
      ∀ F < framesIn ks, NodeKind.envelope sr i es F = gain F := by
  obtain ⟨schedule, h1, h2⟩ := session hsr (by omega) h i
  have hown' : ∀ j (m : Nat), (changes j).filterMap (fun x => if x.1 = i then x.2.adsr?.map fun e => (m, e) else none) =
      ((if j = 0 then settings sequence attack decay else []) ++ (ons j).map fun x => (⟨x.2, x.1, .noteOn⟩ : AdsrEvent)).map fun e => (m, e) := by
    intro j m
    rw [← hown j, List.map_filterMap]
    congr 1
    funext x
    by_cases hx : x.1 = i
    · rw [if_pos hx, if_pos hx]
    · rw [if_neg hx, if_neg hx]
      rfl
  have hsent : adsrSent changes i ks = (settings sequence attack decay).map (fun e => (0, e)) ++
      (requested ons ks).map Timed.event := by
    obtain ⟨n, hl⟩ : ∃ n, ks.length = n + 1 := ⟨ks.length - 1, by have := List.length_pos_iff.mpr hks; omega⟩
    rw [adsrSent, requested, hl, List.range_succ_eq_map, List.flatMap_cons, List.flatMap_map, List.flatMap_cons,
      List.flatMap_map, List.map_append, List.map_flatMap, hown', if_pos rfl, List.map_append, List.append_assoc]
    congr 1
    congr 1
    · rw [List.map_map, List.map_map]
      rfl
    · congr 1
      funext j
      rw [hown', if_neg (by omega), List.nil_append, List.map_map, List.map_map]
      rfl
  rw [hsent] at h1
  obtain ⟨frames, gain, g1, g2, g3, g4⟩ := clicks_gain hsr hle hseq _ hnum h0 ht hsp h1
  exact ⟨frames, gain, g1, g2, g3, fun F hF => (h2 F hF).trans (g4 _ F hF)⟩

/-- Two clicks of four frames, a second apart, at a rate of 8 Hz. -/
example : ∃ frames gain, List.Forall₂ (fun (x : Timed ℕ) g => AtFrame 8 x.first x.time g) [⟨0, 0, 3⟩, ⟨0, 2 ^ 32, 4⟩] frames ∧
    (∀ F, (∀ x ∈ frames.head?, F < x) → gain F = 0) ∧ Shapes gain 2 2 frames ∧
    ∀ F < 24, NodeKind.envelope 8 1 (((settings id (1 / 4) (1 / 4)).map fun e => .change 1 (.adsr e)) ++
      [.change 1 (.adsr ⟨3, 0, .noteOn⟩), .change 1 (.adsr ⟨4, 2 ^ 32, .noteOn⟩), .block 0 24]) F = gain F := by
  have hreq : requested (fun j => if j = 0 then [((0 : Int), 3), (2 ^ 32, 4)] else []) [adsrCall] =
      [⟨0, 0, 3⟩, ⟨0, 2 ^ 32, 4⟩] := by
    simp [requested, framesIn]
  have h := C94_clicks 32 8 (by norm_num) (by norm_num) (1 / 4) (1 / 4) id strictMono_id
    (fun j => if j = 0 then [((0 : Int), 3), (2 ^ 32, 4)] else [])
    (fun j => if j = 0 then (((settings id (1 / 4) (1 / 4)) ++ ([⟨3, 0, .noteOn⟩, ⟨4, 2 ^ 32, .noteOn⟩] : List AdsrEvent)).map
      fun e => (1, .adsr e)) else []) 1 (by
      intro j
      by_cases hj : j = 0
      · simp [hj, MixedRequest.adsr?, settings]
      · simp [hj]) _ (by simp) _ (adsrSession _) (by rw [hreq]; simp) (by rw [hreq]; simp) (by rw [hreq]; simp) (by
      rw [hreq, stageFrames_example]
      simp [Spaced, Timed.due]
      norm_num)
  rw [hreq, stageFrames_example] at h
  have e : Timestamp.incrementedBySamples 0 0 8 = 0 := by
    simp [Timestamp.incrementedBySamples, Timestamp.fromSamples, Timestamp.fromSeconds, Timestamp.roundHalfEven]
  rw [e] at h
  simpa [framesIn, adsrCall, Buf.frameCount, Function.comp_def] using h

/-- C94: a parameter of a node that is set again and again, at times two frames apart at least, by requests before any
process calls: at each frame it has the value of the last set that has been requested and whose time is not after that of
the frame (to one and a half units of 2⁻³² s), and its default before the first. -/
theorem C94_sets {P : Type} (k : FxKind) (i : Id) (name : String) (mf sr : Nat) (hsr : 0 < sr) (hle : sr ≤ 2 ^ 30)
    (sets : ℕ → List (Int × ℝ)) (changes : Nat → List (Id × MixedRequest))
    (hown : ∀ j, (changes j).filterMap (fun x => if x.1 = i then x.2.parameter?.filter (fun r => r.name = name) else none) =
      (sets j).map fun x => .change name ⟨x.2, x.1, .immediate⟩)
    (ks : List (Call ℝ P MixedRequest)) (es : List (ChainEvent MixedRequest)) (h : ChainHistory mf sr changes ks es)
    (ht : (requested sets ks).Pairwise fun x y => x.time ≤ y.time) (hsp : Spaced sr 2 (requested sets ks)) (F : ℕ)
    (hF : F < framesIn ks) :
    ∃ t : Int, |(t : ℚ) - F / sr * 2 ^ 32| ≤ 3 / 2 ∧
      k.track sr (es.filterMap (ChainEvent.seen i MixedRequest.parameter?)) i name F =
        valueAt (k.default name) (requested sets ks) F t := by
  have hs := history_seen (P' := FxNode) i MixedRequest.parameter? h
  obtain ⟨hist, h1, h2, _⟩ := Fx.track_values i name (.new realArith (k.default name))
    (own := fun j => (sets j).map fun x => ⟨x.2, x.1, .immediate⟩) (by
      intro j
      rw [seenBy, List.filter_filterMap]
      have : ((changes j).filterMap fun x => if x.1 = i then x.2.parameter?.filter (fun r => r.name = name) else none).map
          (fun r => (i, r)) = ((sets j).map fun x => (⟨x.2, x.1, .immediate⟩ : ParameterChange ℝ)).map
            fun c => (i, ParameterRequest.change name c) := by
        rw [hown j, List.map_map, List.map_map]
        rfl
      rw [← this, List.map_filterMap]
      congr 1
      funext x
      by_cases hx : x.1 = i
      · rw [if_pos hx, if_pos hx]
        cases x.2.parameter? with
        | none => rfl
        | some r =>
          by_cases hr : r.name = name <;> simp [Option.filter, hr]
      · rw [if_neg hx, if_neg hx]
        rfl) hs
  have hreq : requested sets (ks.map (Call.bare : Call ℝ P MixedRequest → Call ℝ FxNode ParameterRequest)) =
      requested sets ks := by
    unfold requested
    rw [List.length_map]
    congr 1
    funext j
    rw [← List.map_take, framesIn_bare]
  obtain ⟨v1, -⟩ := sets_values (v := k.default name) hsr hle _ h1 (by rw [hreq]; exact hsp) (by rw [hreq]; exact ht)
  have hfr := Gain.history_frames _ h1
  rw [framesIn_bare] at hfr
  have hl1 : F < (frameTimes sr (hist.flatMap Prod.snd)).length := by omega
  have hl2 : F < (gainValues sr (.new realArith (k.default name)) hist).1.length := by rw [v1.1]; exact hl1
  have htime := (Gain.history_times hsr (by omega) _ h1 (List.getElem?_eq_getElem hl1)).2
  refine ⟨_, htime, ?_⟩
  rw [FxKind.track, h2, List.getD_eq_getElem?_getD, List.getElem?_eq_getElem hl2, Option.getD_some,
    v1.2 F _ _ (List.getElem?_eq_getElem hl1) (List.getElem?_eq_getElem hl2), hreq, Nat.zero_add]

/-- The gain of a node is set to 1 / 2 at frame 8 and to 1 / 4 at frame 16, at a rate of 8 Hz. -/
example : ∃ t : Int, |(t : ℚ) - (20 : ℕ) / (8 : ℕ) * 2 ^ 32| ≤ 3 / 2 ∧
    (FxKind.gain 2).track 8 ([.change 1 (.change "gain" ⟨1 / 2, 2 ^ 32, .immediate⟩),
      .change 1 (.change "gain" ⟨1 / 4, 2 * 2 ^ 32, .immediate⟩), .block 0 24]) 1 "gain" 20 =
      valueAt 1 [⟨0, 2 ^ 32, 1 / 2⟩, ⟨0, 2 * 2 ^ 32, 1 / 4⟩] 20 t := by
  have hreq : requested (fun j => if j = 0 then [((2 ^ 32 : Int), (1 / 2 : ℝ)), (2 * 2 ^ 32, 1 / 4)] else []) [adsrCall] =
      [⟨0, 2 ^ 32, 1 / 2⟩, ⟨0, 2 * 2 ^ 32, 1 / 4⟩] := by
    simp [requested, framesIn]
  have h := C94_sets (.gain 2) 1 "gain" 32 8 (by norm_num) (by norm_num)
    (fun j => if j = 0 then [((2 ^ 32 : Int), (1 / 2 : ℝ)), (2 * 2 ^ 32, 1 / 4)] else [])
    (fun j => if j = 0 then [(1, .parameter (.change "gain" ⟨1 / 2, 2 ^ 32, .immediate⟩)),
      (1, .parameter (.change "gain" ⟨1 / 4, 2 * 2 ^ 32, .immediate⟩))] else []) (by
      intro j
      by_cases hj : j = 0
      · simp [hj, MixedRequest.parameter?, ParameterRequest.name, Option.filter]
      · simp [hj]) _ _ (adsrSession _) (by rw [hreq]; simp) (by
      rw [hreq]
      simp [Spaced, Timed.due]
      norm_num) 20 (by simp [framesIn, adsrCall, Buf.frameCount])
  have e : Timestamp.incrementedBySamples 0 0 8 = 0 := by
    simp [Timestamp.incrementedBySamples, Timestamp.fromSamples, Timestamp.fromSeconds, Timestamp.roundHalfEven]
  rw [hreq, e, show (FxKind.gain 2).default "gain" = 1 from rfl] at h
  simpa [ChainEvent.seen, MixedRequest.parameter?] using h

end Clicks
end Rawdio
