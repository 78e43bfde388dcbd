import Verif.Model.PanFloat
import Verif.Spec.PanFloat
import Verif.Lemmas.GainFloat
import Verif.Lemmas.Pan

/-! # Lemmas about the pan node with `f32` samples -/

namespace Rawdio
namespace Pan

open Buf

theorem frames32_ok (panValues : List Sample32) (input output : Buf Sample32) (ho : output.WF) (hw : output.Writable)
    (hc : 2 ≤ output.channelCount) (hp : output.frameCount ≤ panValues.length) (left right : Nat → Sample32)
    (hl : ∀ f < output.frameCount, input.getSample ⟨0, f⟩ = .ok (left f))
    (hr : ∀ f < output.frameCount, input.getSample ⟨1, f⟩ = .ok (right f))
    (n : Nat) (hn : n ≤ output.frameCount) :
    ∃ out, (List.range n).foldlM (fun output frame => processFrame32 panValues input output frame) output = .ok out ∧
      output.SameShape out ∧ out.WF ∧ out.Writable ∧
      ∀ c f, c < output.channelCount → f < output.frameCount → out.sample? c f =
        if f < n ∧ c = 0 then some (left f * leftGain32 (panValues.getD f 0))
        else if f < n ∧ c = 1 then some (right f * rightGain32 (panValues.getD f 0))
        else output.sample? c f := by
  induction n with
  | zero =>
    refine ⟨output, rfl, SameShape.refl _, ho, hw, ?_⟩
    intro c f _ _
    rw [if_neg (by omega), if_neg (by omega)]
  | succ n ih =>
    obtain ⟨out, e1, e2, e3, e4, e5⟩ := ih (by omega)
    have hcc := e2.channelCount
    have hfc := e2.frameCount
    obtain ⟨b1, c1, c2, c3, c4, c5⟩ := setSample_spec out e3 e4 0 n (by omega) (by omega)
      (left n * leftGain32 (panValues.getD n 0))
    have hcc1 := c2.channelCount
    have hfc1 := c2.frameCount
    obtain ⟨b2, d1, d2, d3, d4, d5⟩ := setSample_spec b1 c3 c4 1 n (by omega) (by omega)
      (right n * rightGain32 (panValues.getD n 0))
    refine ⟨b2, ?_, (e2.trans c2).trans d2, d3, d4, ?_⟩
    · rw [List.range_succ, List.foldlM_append, e1]
      simp only [List.foldlM_cons, List.foldlM_nil, bind_pure]
      show processFrame32 panValues input out n = .ok b2
      unfold processFrame32
      have hidx : Buf.index panValues n = .ok (panValues.getD n 0) := by
        rw [index_ok (by omega : n < panValues.length), List.getD_eq_getElem?_getD,
          List.getElem?_eq_getElem (by omega : n < panValues.length)]
        rfl
      simp only [hidx, hl n (by omega), hr n (by omega), bind, Except.bind, c1, d1]
    · intro c f hc' hf'
      rw [d5 c f (by omega) (by omega), c5 c f (by omega) (by omega), e5 c f hc' hf']
      by_cases hfn : f = n
      · subst hfn
        by_cases h0 : c = 0
        · rw [if_neg (by omega), if_pos ⟨h0, rfl⟩, if_pos ⟨by omega, h0⟩]
        · by_cases h1 : c = 1
          · rw [if_pos ⟨h1, rfl⟩, if_neg (by omega), if_pos ⟨by omega, h1⟩]
          · rw [if_neg (by omega), if_neg (by omega), if_neg (by omega), if_neg (by omega), if_neg (by omega),
              if_neg (by omega)]
      · rw [if_neg (by omega), if_neg (by omega)]
        have : (f < n ↔ f < n + 1) := by omega
        simp only [this]

/-- The gain of a side, from how far the pan is from it. -/
theorem sideGain_val (c : Nat) (pan : Sample32) :
    (if c = 0 then leftGain32 pan else rightGain32 pan).1 = min (Float32.round (1 - awayFrom c pan)) 1 := by
  have key : ∀ x : Sample32, (atMostOne x).1 = min x.1 1 := by
    intro x
    unfold atMostOne
    split_ifs with h
    · rw [min_eq_left h]
    · rw [min_eq_right (le_of_not_ge h), Sample32.one_val]
  unfold awayFrom
  split_ifs with h
  · exact key _
  · rw [rightGain32, key, Sample32.add_val, Sample32.one_val, sub_neg_eq_add]

/-- What the pan node makes of a frame. -/
theorem processAudio32_ok {panValues : List Sample32} {input output : Buf Sample32}
    (h : StereoBlock panValues input output) :
    ∃ out, processAudio32 panValues input output = .ok out ∧ output.SameShape out ∧
      ∀ c f, c < 2 → f < output.frameCount → ∃ x pan y, input.sample? c f = some x ∧ panValues[f]? = some pan ∧
        out.sample? c f = some y ∧ y = x * (if c = 0 then leftGain32 pan else rightGain32 pan) := by
  have hen := h.block.enough
  have hin := h.inStereo
  have hout := h.outStereo
  have hp := h.pans
  have hg : ∀ c < 2, ∀ f < output.frameCount, input.getSample ⟨c, f⟩ = .ok ((input.sample? c f).getD 0) := by
    intro c hc f hf'
    obtain ⟨v, hv, hv'⟩ := getSample_eq input h.block.inWF c f (by omega) (by omega)
    rw [hv, hv']
    rfl
  obtain ⟨out, e1, e2, _, _, e5⟩ := frames32_ok panValues input output h.block.outWF h.block.writable (by omega) hp
    (fun f => (input.sample? 0 f).getD 0) (fun f => (input.sample? 1 f).getD 0) (hg 0 (by omega)) (hg 1 (by omega))
    output.frameCount (le_refl _)
  refine ⟨out, e1, e2, ?_⟩
  intro c f hc hf
  obtain ⟨v, hv, _⟩ := getSample_eq input h.block.inWF c f (by omega) (by omega)
  have hd : panValues.getD f 0 = panValues[f]'(by omega) := by
    rw [List.getD_eq_getElem?_getD, List.getElem?_eq_getElem (by omega : f < panValues.length)]
    rfl
  refine ⟨v, panValues[f]'(by omega), _, hv, List.getElem?_eq_getElem (by omega), ?_, rfl⟩
  have h01 : c = 0 ∨ c = 1 := by omega
  rcases h01 with rfl | rfl
  · rw [e5 0 f (by omega) hf, if_pos ⟨hf, rfl⟩, hv, hd]; rfl
  · rw [e5 1 f (by omega) hf, if_neg (by omega), if_pos ⟨hf, rfl⟩, hv, hd]; rfl

theorem rep_one : Float32.Rep 1 := (1 : Sample32).2

theorem rep_zero : Float32.Rep 0 := (0 : Sample32).2

/-- A gain is between 0 and 1, and close to the exact one. -/
theorem gain_facts {a : ℚ} (h1 : -1 ≤ a) (h2 : a ≤ 1) :
    0 ≤ min (Float32.round (1 - a)) 1 ∧ min (Float32.round (1 - a)) 1 ≤ 1 ∧
      |min (Float32.round (1 - a)) 1 - attenuation a| ≤ 1 / 2 ^ 24 + 1 / 2 ^ 150 ∧
      (a ≤ 0 → min (Float32.round (1 - a)) 1 = 1) := by
  have h0 : 0 ≤ Float32.round (1 - a) := Float32.le_round le_rfl rep_zero (by linarith)
  have hc : a ≤ 0 → min (Float32.round (1 - a)) 1 = 1 := fun h =>
    min_eq_right (Float32.le_round (by norm_num) rep_one (by linarith))
  refine ⟨le_min h0 (by norm_num), min_le_right _ _, ?_, hc⟩
  unfold attenuation
  split_ifs with h
  · rw [hc h, sub_self, abs_zero]; positivity
  · have h' : 0 < a := not_le.mp h
    rw [min_eq_left (Float32.round_le (by linarith) rep_one (by linarith))]
    refine (Float32.round_rel _).trans ?_
    have : |1 - a| ≤ 1 := by rw [abs_of_nonneg (by linarith)]; linarith
    have := mul_le_mul_of_nonneg_right this (by positivity : (0 : ℚ) ≤ 1 / 2 ^ 24)
    linarith

theorem abs_round (x : ℚ) : |Float32.round x| = Float32.round |x| := by
  rcases le_total 0 x with h | h
  · rw [abs_of_nonneg h, abs_of_nonneg (Float32.round_nonneg h)]
  · have := Float32.round_nonneg (x := -x) (by linarith)
    rw [abs_of_nonpos h, Float32.round_neg] at *
    rw [abs_of_nonpos (by linarith)]

end Pan
end Rawdio
