import Verif.Lemmas.AdsrExample
import Verif.Props.AdsrSchedule
import Verif.Props.MixedNodes
import Verif.Props.OfflineExample

/-!
# What the example that plays notes with an ADSR envelope plays (C88)
-/

namespace Rawdio
namespace AdsrExample

open Processor Network Mixed

variable {N : Platform} {al : Int → Nat → Nat → Nat → Nat × Nat}

theorem made_all {sr mf : Nat} {voices : List OfflineExample.Voice} {a g s : Id} {sequence : ℕ → ℕ} {attack decay : ℝ}
    {sustain : Level} {release : ℝ} {notes : List (Int × Int)} {m : Mixer} (hm : Mixer.monoToStereoSplitter = .ok m) :
    NodeKind.Made sr mf (voices.map (fun v => (v.id, kind v)) ++ [(a, .adsr 1), (g, .effect (.gain 1)), (s, .splitter)])
      (made (allCalls sr mf voices a g s sequence attack decay sustain release notes m)) := by
  rw [allCalls, ProgramSteps.build_made, parts, List.map_append, List.map_map]
  refine List.rel_append ?_ (.cons rfl (.cons rfl (.cons ?_ .nil)))
  · induction voices with
    | nil => exact .nil
    | cons v vs ih => exact .cons rfl ih
  · simp only [NodeKind.make, hm, bind, Except.bind]
    rfl

theorem usable {sr : Nat} {voices : List OfflineExample.Voice} {a g s : Id} : ∀ q ∈ voices.map (fun v => (v.id, kind v)) ++
    [(a, NodeKind.adsr 1), (g, .effect (.gain 1)), (s, .splitter)], q.2.Usable := by
  intro q hq
  simp only [List.mem_append, List.mem_map, List.mem_cons, List.not_mem_nil, or_false] at hq
  rcases hq with ⟨v, _, rfl⟩ | rfl | rfl | rfl
  · refine ⟨by norm_num, by rw [Oscillator.makeSine_length]; decide, ?_⟩
    rw [List.getD_eq_getElem?_getD, Oscillator.makeSine_get _ _ _ (by decide)]
    simp
  · trivial
  · trivial
  · trivial

/-- C88: the example that plays notes with an ADSR envelope, with any oscillators, times, levels and notes that leave
time for the envelope: both channels carry the sum of the oscillators, each at its frequency and level, times the gain
of the notes, from the frame on which the engine is started. -/
theorem C88_example (hz : ∀ x, N.isZero x = true → x = 0) (ho : ∀ x, N.isOne x = true → x = 1) (mf mc sr : Nat)
    (hm : 0 < mf) (hmc : 2 ≤ mc) (hsr : 0 < sr) (hle : sr ≤ 2 ^ 30) (hlen : mf * sr ≤ 2 ^ 33)
    (voices : List OfflineExample.Voice) (hf : ∀ v ∈ voices, 0 < v.frequency) (hl : voices.length ≤ 1019) (a g s : Id)
    (hd : Distinct voices a g s) (sequence : ℕ → ℕ) (hseq : StrictMono sequence) (attack decay : ℝ) (sustain : Level)
    (release : ℝ) (hs0 : 0 < sustain.linear) (hs1 : sustain.linear ≤ 1) (notes : List (Int × Int))
    (hn : SpacedNotes sr (stageFrames attack sr + stageFrames decay sr) (stageFrames release sr) 0 notes)
    (calls0 : List (ApiCall MixedNode MixedRequest))
    (hcalls : program sr mf voices a g s sequence attack decay sustain release notes = .ok calls0)
    (waiting ks : List (Call ℝ MixedNode MixedRequest)) (hks : ks ≠ []) (hv : ∀ k ∈ waiting ++ ks, k.Valid)
    (hdel : Delivered (fun i => if i = 0 then calls0 else []) waiting ks) (E : Processor ℝ MixedNode)
    (hE : calls (MixedNode.ops N al) (new sr mc mf) (waiting ++ ks) = .ok E) :
    ∃ frames gain, List.Forall₂ (fun x y => AtFrame sr 0 x.1 y.1 ∧ AtFrame sr 0 x.2 y.2) notes frames ∧
      (∀ F, (∀ x ∈ frames.head?, F < x.1) → gain F = 0) ∧
      NotesShape gain (stageFrames attack sr) (stageFrames decay sr) (stageFrames release sr) sustain.linear frames ∧
      ∀ i k E1 o E2, (waiting ++ ks)[i]? = some k →
        calls (MixedNode.ops N al) (new sr mc mf) ((waiting ++ ks).take i) = .ok E1 →
        E1.process (MixedNode.ops N al) k.env k.commands k.input k.output = .ok (o, E2) →
        ∀ c f F, c < k.output.channelCount → f < k.output.frameCount →
          F = framesIn (ks.take (i - waiting.length)) + f →
          o.sample? c f = some (if i < waiting.length ∨ 2 ≤ c then 0 else
            (voices.map fun v => Oscillator.tableAt (Oscillator.makeSine 8192 1) (v.frequency * (F + 1) / sr) * v.level).sum *
              gain F) := by
  obtain ⟨m, hmx, _⟩ := Mixer.splitter_ok
  rw [program_eq hmx] at hcalls
  injection hcalls with hcalls
  generalize hC : allCalls sr mf voices a g s sequence attack decay sustain release notes m = C at hcalls
  subst hcalls
  have hd' := hd
  rw [Distinct, List.nodup_append] at hd'
  obtain ⟨d1, d2, d3⟩ := hd'
  simp only [List.nodup_cons, List.mem_cons, List.not_mem_nil, or_false, not_or, List.nodup_nil, and_true,
    not_false_eq_true] at d2
  have hvid : ∀ v ∈ voices, v.id ≠ a ∧ v.id ≠ g ∧ v.id ≠ s := by
    intro v hv
    have := d3 v.id (List.mem_map_of_mem hv)
    exact ⟨this a (by simp), this g (by simp), this s (by simp)⟩
  have hreq : ∀ i, requests (if i = 0 then C else []) = if i = 0 then
      voices.map (fun v => (v.id, .parameter (.change "gain" ⟨v.level, Timestamp.zero, .immediate⟩))) ++
      (adsrNotes sequence attack decay sustain release notes).map (fun e => (a, .adsr e)) else [] := by
    intro i
    by_cases hi : i = 0
    · rw [if_pos hi, if_pos hi, ← hC]
      exact requests_all
    · rw [if_neg hi, if_neg hi]
      rfl
  have hP : Network.Program (fun i => if i = 0 then C else []) := by
    subst hC
    exact ProgramSteps.program ProgramSteps.build_builds
      (ProgramSteps.allowed_left _ _ (allowed_all mc hmc hd hl)) ProgramSteps.build_starts
  obtain ⟨es, sig, h1, h2, h3⟩ := C87_mixed hz ho mf mc sr hm hsr (by omega) hlen _ hP
    (by subst hC; exact plain_all hd) _ (usable (sr := sr)) (by subst hC; exact made_all hmx) (by
      intro i x hx
      rw [hreq] at hx
      split at hx
      · rcases List.mem_append.mp hx with hx | hx
        · obtain ⟨v, _, rfl⟩ := List.mem_map.mp hx
          trivial
        · obtain ⟨e, _, rfl⟩ := List.mem_map.mp hx
          trivial
      · cases hx) waiting ks hv hdel E hE
  simp only [hreq] at h1
  have hlinks : links C = voices.map (fun v => ⟨v.id, a, 0, 0, 1⟩) ++ [⟨a, g, 0, 0, 1⟩, ⟨g, s, 0, 0, 1⟩] := by
    subst hC
    rw [allCalls, ProgramSteps.build_links, pairs, List.map_append, List.map_map]
    rfl
  have hin : input C = none := by subst hC; exact ProgramSteps.build_input
  have hout : output C = some s := by subst hC; exact ProgramSteps.build_output
  simp only [if_true, hlinks, hin, hout] at h2 h3
  obtain ⟨frames, gain, g1, g2, g3, g4⟩ := AdsrSchedule.C88_notes mf sr hsr hle attack decay sustain release hs0 hs1 sequence
    hseq notes hn _ a (by
      intro j
      by_cases hj : j = 0
      · simp only [if_pos hj, List.filterMap_append, List.filterMap_map]
        rw [List.filterMap_eq_nil_iff.mpr, List.nil_append]
        · have : ((fun x : Id × MixedRequest => if x.1 = a then x.2.adsr? else none) ∘ fun e => (a, .adsr e)) = some := by
            funext e
            simp [MixedRequest.adsr?]
          rw [this, List.filterMap_some]
        · intro v hv
          simp [MixedRequest.adsr?]
      · simp only [if_neg hj]
        rfl) ks hks es h1
  refine ⟨frames, gain, g1, g2, g3, ?_⟩
  intro i k E1 o E2 hik q1 q2 c f F hc hf' hF
  have hlevel : ∀ v ∈ voices, ∀ F < framesIn ks, (FxKind.oscillator v.frequency 1 (Oscillator.makeSine Oscillator.tableSize 1)).track
      sr (es.filterMap (ChainEvent.seen v.id MixedRequest.parameter?)) v.id "gain" F = v.level := by
    intro v hv F hF
    rw [C87_set_now _ v.id "gain" mf sr hsr hle _ 0 v.level ?_ ks es h1 F hF, if_pos]
    · exact ⟨by simp [framesIn], List.length_pos_iff.mpr hks⟩
    · intro j
      by_cases hj : j = 0
      · simp only [if_pos hj, List.filterMap_append, List.filterMap_map]
        rw [(List.filterMap_eq_nil_iff (l := adsrNotes sequence attack decay sustain release notes)).mpr, List.append_nil]
        · classical
          have he : ∀ w ∈ voices, ((fun x : Id × MixedRequest => if x.1 = v.id then
                x.2.parameter?.filter (fun r => r.name = "gain") else none) ∘
                fun v => (v.id, .parameter (.change "gain" ⟨v.level, Timestamp.zero, .immediate⟩))) w =
              (Option.guard (fun x => decide (x = v)) w).map
                fun v => ParameterRequest.change "gain" ⟨v.level, Timestamp.zero, .immediate⟩ := by
            intro w hw
            by_cases hwv : w = v
            · simp [hwv, Option.guard, MixedRequest.parameter?, Option.filter, ParameterRequest.name]
            · have : w.id ≠ v.id := fun h => hwv (List.inj_on_of_nodup_map d1 hw hv h)
              simp [hwv, this, Option.guard]
          rw [List.filterMap_congr he, ← List.map_filterMap, List.filterMap_eq_filter, List.filter_eq,
            List.count_eq_one_of_mem (List.Nodup.of_map _ d1) hv]
          rfl
        · intro e _
          simp [MixedRequest.parameter?]
      · simp only [if_neg hj]
        rfl
  have hno : ∀ (i : Id) (name : String), name ≠ "gain" ∨ (∀ v ∈ voices, v.id ≠ i) → ∀ j r, (i, MixedRequest.parameter r) ∈
      (if j = 0 then voices.map (fun v => (v.id, .parameter (.change "gain" ⟨v.level, Timestamp.zero, .immediate⟩))) ++
      (adsrNotes sequence attack decay sustain release notes).map (fun e => (a, .adsr e)) else []) → r.name ≠ name := by
    intro i name hi j r hr
    split at hr
    · rcases List.mem_append.mp hr with hr | hr
      · obtain ⟨v, hv, hr⟩ := List.mem_map.mp hr
        injection hr with hr1 hr2
        injection hr2 with hr2
        rcases hi with hi | hi
        · rw [← hr2]
          exact fun h => hi h.symm
        · exact absurd hr1 (hi v hv)
      · obtain ⟨e, _, hr⟩ := List.mem_map.mp hr
        cases hr
    · cases hr
  have hfreq : ∀ v ∈ voices, ∀ F < framesIn ks, (FxKind.oscillator v.frequency 1 (Oscillator.makeSine Oscillator.tableSize 1)).track
      sr (es.filterMap (ChainEvent.seen v.id MixedRequest.parameter?)) v.id "frequency" F = v.frequency := by
    intro v hv F hF
    rw [C87_untouched _ v.id "frequency" mf sr _ (hno v.id "frequency" (.inl (by decide))) ks es h1 F hF]
    rfl
  have hgain : ∀ F < framesIn ks, (FxKind.gain 1).track sr (es.filterMap (ChainEvent.seen g MixedRequest.parameter?)) g "gain" F =
      1 := by
    intro F hF
    rw [C87_untouched _ g "gain" mf sr _ (hno g "gain" (.inr fun v hv => (hvid v hv).2.1)) ks es h1 F hF]
    rfl
  have hosc : ∀ v ∈ voices, ∀ F < framesIn ks, sig v.id 0 F =
      Oscillator.tableAt (Oscillator.makeSine 8192 1) (v.frequency * (F + 1) / sr) * v.level := by
    intro v hv F hF
    have := h2 (v.id, kind v) (by simp only [List.mem_append, List.mem_map]; exact .inl ⟨v, hv, rfl⟩)
      (fun F hF => by rw [hfreq v hv F hF]; exact hf v hv) 0 F hF
    dsimp only at this
    rw [this, FxKind.heard, if_pos (by exact Nat.one_pos)]
    simp only [FxKind.effect]
    have hc : Oscillator.cycles ((FxKind.oscillator v.frequency 1 (Oscillator.makeSine Oscillator.tableSize 1)).track
        sr (es.filterMap (ChainEvent.seen v.id MixedRequest.parameter?)) v.id "frequency") sr (F + 1) =
        v.frequency * (F + 1) / sr := by
      rw [Oscillator.cycles, Finset.sum_congr rfl fun t ht => by
        rw [hfreq v hv t (by have := Finset.mem_range.mp ht; omega)], Finset.sum_const, Finset.card_range, nsmul_eq_mul]
      push_cast
      ring
    rw [hc, hlevel v hv F hF]
    rfl
  have hmix : ∀ F < framesIn ks, sig a 0 F =
      (voices.map fun v => Oscillator.tableAt (Oscillator.makeSine 8192 1) (v.frequency * (F + 1) / sr) * v.level).sum *
        gain F := by
    intro F hF
    have := h2 (a, .adsr 1) (by simp) 0 F hF
    rw [this, if_pos (by exact Nat.one_pos), g4 F hF]
    congr 1
    simp only [arriving]
    have hfil : List.filter (fun l : Link => l.dst = a)
        (voices.map (fun v => ⟨v.id, a, 0, 0, 1⟩) ++ [⟨a, g, 0, 0, 1⟩, ⟨g, s, 0, 0, 1⟩]) =
        voices.map fun v => ⟨v.id, a, 0, 0, 1⟩ := by
      rw [List.filter_append, List.filter_eq_self.mpr, List.filter_eq_nil_iff.mpr, List.append_nil]
      · intro l hl
        simp only [List.mem_cons, List.not_mem_nil, or_false] at hl
        rcases hl with rfl | rfl
        · simpa using Ne.symm d2.1.1
        · simpa using Ne.symm d2.1.2
      · intro l hl
        obtain ⟨v, _, rfl⟩ := List.mem_map.mp hl
        simp
    rw [hfil, List.map_map, if_neg (by simp), ← List.sum_eq_foldl]
    congr 1
    apply List.map_congr_left
    intro v hv
    simp only [Function.comp_apply, Link.brings]
    rw [if_pos (by omega), ← hosc v hv F hF]
  have hturn : ∀ F < framesIn ks, sig g 0 F = sig a 0 F := by
    intro F hF
    have := h2 (g, .effect (.gain 1)) (by simp) trivial 0 F hF
    dsimp only at this
    rw [this, FxKind.heard, if_pos (by exact Nat.one_pos)]
    simp only [FxKind.effect]
    rw [hgain F hF, mul_one]
    simp only [arriving]
    have hfil : List.filter (fun l : Link => l.dst = g)
        (voices.map (fun v => ⟨v.id, a, 0, 0, 1⟩) ++ [⟨a, g, 0, 0, 1⟩, ⟨g, s, 0, 0, 1⟩]) = [⟨a, g, 0, 0, 1⟩] := by
      rw [List.filter_append, List.filter_eq_nil_iff.mpr, List.nil_append]
      · simp [Ne.symm d2.2]
      · intro l hl
        obtain ⟨v, _, rfl⟩ := List.mem_map.mp hl
        simpa using d2.1.1
    rw [hfil, if_neg (by simp)]
    simp [Link.brings]
  have hsplit : ∀ c F, F < framesIn ks → sig s c F = if c < 2 then sig g 0 F else 0 := by
    intro c F hF
    have := h2 (s, .splitter) (by simp) c F hF
    rw [this, NodeKind.mixed]
    by_cases hc2 : c < 2
    · rw [if_pos (by exact hc2), if_pos hc2]
      obtain ⟨j, j1, j2⟩ : ∃ j, framesIn (ks.take j) ≤ F ∧ F < framesIn (ks.take (j + 1)) := by
        by_contra hno
        push Not at hno
        have : ∀ j, framesIn (ks.take j) ≤ F := by
          intro j
          induction j with
          | zero => simp [framesIn]
          | succ j ih => exact hno j ih
        have := this ks.length
        rw [List.take_length] at this
        omega
      have hlev : (levelTrack NodeKind.splitter.levels (es.filterMap (ChainEvent.seen s MixedRequest.level?))).getD F
          NodeKind.splitter.levels = NodeKind.splitter.levels := by
        rw [C87_levels s mf sr _ ks es h1 _ j F j1 j2, List.flatMap_eq_nil_iff.mpr]
        · rfl
        · intro l _
          rw [List.filterMap_eq_nil_iff]
          intro x hx
          split at hx
          · rcases List.mem_append.mp hx with hx | hx
            · obtain ⟨v, _, rfl⟩ := List.mem_map.mp hx
              simp [MixedRequest.level?]
            · obtain ⟨e, _, rfl⟩ := List.mem_map.mp hx
              simp [MixedRequest.level?]
          · cases hx
      rw [hlev]
      show ∑ j ∈ Finset.range 1, _ = _
      rw [Finset.sum_range_one]
      have : NodeKind.splitter.levels 0 c = 1 := by simp [NodeKind.levels, hc2]
      rw [this, Mixer.effectiveGain_one, mul_one]
      simp only [arriving]
      have hfil : List.filter (fun l : Link => l.dst = s)
          (voices.map (fun v => ⟨v.id, a, 0, 0, 1⟩) ++ [⟨a, g, 0, 0, 1⟩, ⟨g, s, 0, 0, 1⟩]) = [⟨g, s, 0, 0, 1⟩] := by
        rw [List.filter_append, List.filter_eq_nil_iff.mpr, List.nil_append]
        · simp [d2.2]
        · intro l hl
          obtain ⟨v, _, rfl⟩ := List.mem_map.mp hl
          simpa using d2.1.2
      rw [hfil, if_neg (by simp)]
      simp [Link.brings]
    · rw [if_neg (by exact hc2), if_neg hc2]
  rw [h3 i k E1 o E2 hik q1 q2 c f hc hf']
  by_cases hi : i < waiting.length
  · rw [if_pos hi, if_pos (.inl hi)]
  · rw [if_neg hi, ← hF, heard]
    simp only [Option.elim]
    have hFl : F < framesIn ks := by
      rw [List.getElem?_append_right (by omega)] at hik
      have hlt : i - waiting.length < ks.length := by
        by_contra hn; rw [List.getElem?_eq_none (by omega)] at hik; cases hik
      have e : ks = ks.take (i - waiting.length) ++ k :: ks.drop (i - waiting.length + 1) := by
        conv_lhs => rw [← List.take_append_drop (i - waiting.length) ks]
        rw [List.drop_eq_getElem_cons hlt]
        rw [List.getElem?_eq_getElem hlt] at hik
        injection hik with hik
        rw [hik]
      rw [hF]
      conv_rhs => rw [e]
      simp only [framesIn, List.map_append, List.sum_append, List.map_cons, List.sum_cons]
      omega
    rw [hsplit c F hFl, hturn F hFl, hmix F hFl]
    by_cases hc2 : c < 2
    · rw [if_pos (show c < mc by omega), if_pos hc2, if_neg (by omega)]
    · rw [if_neg hc2, if_pos (show i < waiting.length ∨ 2 ≤ c by omega)]
      simp

/-- C88: all of the example can be rendered, as long as no oscillator comes to a whole number of cycles at a frame (when
it would panic, C46). -/
theorem C88_example_runs (hz : ∀ x, N.isZero x = true → x = 0) (ho : ∀ x, N.isOne x = true → x = 1) (mf mc sr : Nat)
    (hm : 0 < mf) (hmc : 2 ≤ mc) (hsr : 0 < sr) (hsr' : sr < 2 ^ 32) (hlen : mf * sr ≤ 2 ^ 33)
    (voices : List OfflineExample.Voice) (hl : voices.length ≤ 1019)
    (hf : ∀ v ∈ voices, 0 < v.frequency ∧ ∀ n : ℕ, 0 < n → ¬ Oscillator.Whole (v.frequency * n / sr)) (a g s : Id)
    (hd : Distinct voices a g s) (sequence : ℕ → ℕ) (attack decay : ℝ) (sustain : Level) (release : ℝ)
    (notes : List (Int × Int)) :
    ∃ calls0, program sr mf voices a g s sequence attack decay sustain release notes = .ok calls0 ∧
      ∀ waiting ks : List (Call ℝ MixedNode MixedRequest), (∀ k ∈ waiting ++ ks, k.Valid) →
        Delivered (fun i => if i = 0 then calls0 else []) waiting ks →
        ∃ E, calls (MixedNode.ops N al) (new sr mc mf) (waiting ++ ks) = .ok E := by
  obtain ⟨m, hmx, _⟩ := Mixer.splitter_ok
  refine ⟨_, program_eq hmx, ?_⟩
  intro waiting ks hv hdel
  have hall := allowed_all (sr := sr) (mf := mf) (sequence := sequence) (attack := attack) (decay := decay)
    (sustain := sustain) (release := release) (notes := notes) (m := m) mc hmc hd hl
  have hd' := hd
  rw [Distinct, List.nodup_append] at hd'
  obtain ⟨d1, d2, d3⟩ := hd'
  simp only [List.nodup_cons, List.mem_cons, List.not_mem_nil, or_false, not_or, List.nodup_nil, and_true,
    not_false_eq_true] at d2
  have hvid : ∀ v ∈ voices, v.id ≠ a ∧ v.id ≠ g ∧ v.id ≠ s := by
    intro v hv
    have := d3 v.id (List.mem_map_of_mem hv)
    exact ⟨this a (by simp), this g (by simp), this s (by simp)⟩
  refine C87_runs hz ho mf mc sr hm hsr hsr' hlen _ (ProgramSteps.program ProgramSteps.build_builds
      (ProgramSteps.allowed_left _ _ hall) ProgramSteps.build_starts)
    (voices.map (fun v => (v.id, kind v)) ++ [(a, .adsr 1), (g, .effect (.gain 1)), (s, .splitter)]) ?_ (made_all hmx) ?_ ?_
    waiting ks hv hdel
  · intro q hq
    refine ⟨usable (sr := sr) q hq, ?_⟩
    simp only [List.mem_append, List.mem_map, List.mem_cons, List.not_mem_nil, or_false] at hq
    rcases hq with ⟨v, hv, rfl⟩ | rfl | rfl | rfl
    · exact hf v hv
    · trivial
    · trivial
    · trivial
  · intro i x hx k hk
    have hreq := requests_all (sr := sr) (mf := mf) (voices := voices) (a := a) (g := g) (s := s) (sequence := sequence)
      (attack := attack) (decay := decay) (sustain := sustain) (release := release) (notes := notes) (m := m)
    split at hx
    · rw [← allCalls, hreq, List.mem_append] at hx
      simp only [List.mem_append, List.mem_map, List.mem_cons, List.not_mem_nil, or_false] at hk
      rcases hx with hx | hx
      · obtain ⟨v, hv, rfl⟩ := List.mem_map.mp hx
        obtain ⟨v1, v2, v3⟩ := hvid v hv
        rcases hk with ⟨w, _, hw⟩ | hk | hk | hk
        · injection hw with _ hw
          subst hw
          exact .inl rfl
        · exact absurd (Prod.mk.inj hk).1 v1
        · exact absurd (Prod.mk.inj hk).1 v2
        · exact absurd (Prod.mk.inj hk).1 v3
      · obtain ⟨e, _, rfl⟩ := List.mem_map.mp hx
        rcases hk with ⟨w, hw', hw⟩ | hk | hk | hk
        · exact absurd (Prod.mk.inj hw).1 (hvid w hw').1
        · injection hk with _ hk
          subst hk
          trivial
        · exact absurd (Prod.mk.inj hk).1 d2.1.1
        · exact absurd (Prod.mk.inj hk).1 d2.1.2
    · cases hx
  · intro n
    rw [ProgramSteps.at_first]
    split
    · trivial
    · exact hall

/-! ### The example as it is -/

theorem example_frames : stageFrames (1 / 10) 44100 = 4410 ∧ stageFrames (3 / 20) 44100 = 6615 ∧
    stageFrames (1 / 5) 44100 = 8820 := by
  have h1 : (1 / 10 : ℝ) * (44100 : ℕ) = (4410 : ℕ) := by norm_num
  have h2 : (3 / 20 : ℝ) * (44100 : ℕ) = (6615 : ℕ) := by norm_num
  have h3 : (1 / 5 : ℝ) * (44100 : ℕ) = (8820 : ℕ) := by norm_num
  refine ⟨?_, ?_, ?_⟩
  · rw [stageFrames, h1, Nat.ceil_natCast]; decide
  · rw [stageFrames, h2, Nat.ceil_natCast]; decide
  · rw [stageFrames, h3, Nat.ceil_natCast]; decide

theorem example_notes : exampleNotes = [(0, 2147483648), (4294967296, 6442450944), (8589934592, 10737418240),
    (12884901888, 15032385536)] := by
  have h : ∀ (q : ℚ) (n : Int), q * Timestamp.one = n → Timestamp.fromSeconds q = n := by
    intro q n hq
    rw [Timestamp.fromSeconds, hq, Timestamp.roundHalfEven_int]
  rw [exampleNotes, h (1 / 2) 2147483648 (by norm_num [Timestamp.one]), h 1 4294967296 (by norm_num [Timestamp.one]),
    h (3 / 2) 6442450944 (by norm_num [Timestamp.one]), h 2 8589934592 (by norm_num [Timestamp.one]),
    h (5 / 2) 10737418240 (by norm_num [Timestamp.one]), h 3 12884901888 (by norm_num [Timestamp.one]),
    h (7 / 2) 15032385536 (by norm_num [Timestamp.one])]
  rfl

theorem example_spaced : SpacedNotes 44100 (4410 + 6615) 8820 0 exampleNotes := by
  rw [example_notes]
  refine ⟨by norm_num, by norm_num, ?_, by norm_num, by norm_num, ?_, by norm_num, by norm_num, ?_, by norm_num, by norm_num, ?_,
    trivial⟩
  · rintro y ⟨⟩; norm_num
  · rintro y ⟨⟩; norm_num
  · rintro y ⟨⟩; norm_num
  · rintro y ⟨⟩

theorem example_sustain : 0 < (Level.fromDb (-6)).linear ∧ (Level.fromDb (-6)).linear ≤ 1 := by
  rw [Level.fromDb, if_neg (by norm_num [Level.minusInfinityDecibels])]
  refine ⟨by positivity, ?_⟩
  exact Real.rpow_le_one_of_one_le_of_nonpos (by norm_num) (by norm_num)

/-- C88: the times, levels and notes of the example as they are, with any oscillators: four notes, each of which rises for
4410 frames, falls to -6 dB for 6615 frames, stays there until its end and fades for 8820 frames. -/
theorem C88_adsr_rs (hz : ∀ x, N.isZero x = true → x = 0) (ho : ∀ x, N.isOne x = true → x = 1) (mf mc n : Nat)
    (hm : 0 < mf) (hmc : 2 ≤ mc) (hlen : mf ≤ 194783) (voices : List OfflineExample.Voice)
    (hf : ∀ v ∈ voices, 0 < v.frequency) (hl : voices.length ≤ 1019) (a g s : Id) (hd : Distinct voices a g s)
    (calls0 : List (ApiCall MixedNode MixedRequest)) (hcalls : exampleProgram mf voices a g s n = .ok calls0)
    (waiting ks : List (Call ℝ MixedNode MixedRequest)) (hks : ks ≠ []) (hv : ∀ k ∈ waiting ++ ks, k.Valid)
    (hdel : Delivered (fun i => if i = 0 then calls0 else []) waiting ks) (E : Processor ℝ MixedNode)
    (hE : calls (MixedNode.ops N al) (new 44100 mc mf) (waiting ++ ks) = .ok E) :
    ∃ frames gain, List.Forall₂ (fun x y => AtFrame 44100 0 x.1 y.1 ∧ AtFrame 44100 0 x.2 y.2) exampleNotes frames ∧
      NotesShape gain 4410 6615 8820 (Level.fromDb (-6)).linear frames ∧
      ∀ i k E1 o E2, (waiting ++ ks)[i]? = some k →
        calls (MixedNode.ops N al) (new 44100 mc mf) ((waiting ++ ks).take i) = .ok E1 →
        E1.process (MixedNode.ops N al) k.env k.commands k.input k.output = .ok (o, E2) →
        ∀ c f F, c < k.output.channelCount → f < k.output.frameCount →
          F = framesIn (ks.take (i - waiting.length)) + f →
          o.sample? c f = some (if i < waiting.length ∨ 2 ≤ c then 0 else
            (voices.map fun v =>
              Oscillator.tableAt (Oscillator.makeSine 8192 1) (v.frequency * (F + 1) / 44100) * v.level).sum * gain F) := by
  obtain ⟨f1, f2, f3⟩ := example_frames
  obtain ⟨frames, gain, h1, _, h3, h4⟩ := C88_example hz ho mf mc 44100 hm hmc (by norm_num) (by norm_num) (by omega) voices
    hf hl a g s hd (fun k => n + k) (fun _ _ h => Nat.add_lt_add_left h n) (1 / 10) (3 / 20)
    (Level.fromDb (-6)) (1 / 5) example_sustain.1 example_sustain.2 exampleNotes (by rw [f1, f2, f3]; exact example_spaced)
    calls0 hcalls waiting ks hks hv hdel E hE
  rw [f1, f2, f3] at h3
  refine ⟨frames, gain, h1, h3, ?_⟩
  intro i k E1 o E2 a1 a2 a3 c f F a4 a5 a6
  have := h4 i k E1 o E2 a1 a2 a3 c f F a4 a5 a6
  push_cast at this
  exact this

/-- Two oscillators, for examples. -/
noncomputable def twoVoices : List OfflineExample.Voice := [⟨1, 440 * √2, 1 / 2⟩, ⟨2, 660 * √2, 1 / 4⟩]

/-- Two oscillators with the notes of the example in a session of three calls, of which the first is before the program
has made its calls. -/
example : ∃ calls0 E, exampleProgram 16 twoVoices 3 4 5 0 = .ok calls0 ∧ Distinct twoVoices 3 4 5 ∧
    SpacedNotes 44100 (stageFrames (1 / 10) 44100 + stageFrames (3 / 20) 44100) (stageFrames (1 / 5) 44100) 0 exampleNotes ∧
    (∀ k ∈ [mixedCall []] ++ [mixedCall calls0, mixedCall []], k.Valid) ∧
    Delivered (fun i => if i = 0 then calls0 else []) [mixedCall []] [mixedCall calls0, mixedCall []] ∧
    calls (MixedNode.ops Fx.plain fun _ _ _ _ => (0, 0)) (new 44100 2 16)
      ([mixedCall []] ++ [mixedCall calls0, mixedCall []]) = .ok E := by
  have hd : Distinct twoVoices 3 4 5 := by simp [Distinct, twoVoices]
  obtain ⟨f1, f2, f3⟩ := example_frames
  obtain ⟨calls0, h1, h2⟩ := C88_example_runs (N := Fx.plain) (al := fun _ _ _ _ => (0, 0)) (by simp [Fx.plain])
    (by simp [Fx.plain]) 16 2 44100
    (by norm_num) (le_refl _) (by norm_num) (by norm_num) (by norm_num) twoVoices (by simp [twoVoices]) (by
      intro v hv
      simp only [twoVoices, List.mem_cons, List.not_mem_nil, or_false] at hv
      rcases hv with rfl | rfl
      · exact ⟨by positivity, fun n hn => by have := OfflineExample.not_whole (a := 440) (by norm_num) n hn 44100 (by norm_num); push_cast at this ⊢; exact this⟩
      · exact ⟨by positivity, fun n hn => by have := OfflineExample.not_whole (a := 660) (by norm_num) n hn 44100 (by norm_num); push_cast at this ⊢; exact this⟩)
    3 4 5 hd (fun k => 0 + k) (1 / 10) (3 / 20) (Level.fromDb (-6)) (1 / 5) exampleNotes
  have hval : ∀ k ∈ [mixedCall []] ++ [mixedCall calls0, mixedCall []], k.Valid := by
    intro k hk
    simp only [List.cons_append, List.nil_append, List.mem_cons, List.not_mem_nil, or_false] at hk
    rcases hk with rfl | rfl | rfl <;> exact mixedCall_valid _
  obtain ⟨E, hE⟩ := h2 _ _ hval (mixedCall_delivered calls0)
  exact ⟨calls0, E, h1, hd, by rw [f1, f2, f3]; exact example_spaced, hval, mixedCall_delivered calls0, hE⟩

end AdsrExample
end Rawdio
