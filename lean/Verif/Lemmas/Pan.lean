import Verif.Model.Pan
import Verif.Spec.Mixer
import Verif.Props.Buffers
import Verif.Lemmas.Buffer3

/-! # Lemmas on the pan node -/

namespace Rawdio
namespace Pan

open Buf

/-- Writing a sample, in terms of the samples. -/
theorem setSample_spec {S : Type} (b : Buf S) (hw : b.WF) (hm : b.Writable) (c f : Nat)
    (hc : c < b.channelCount) (hf : f < b.frameCount) (v : S) :
    ∃ b', b.setSample ⟨c, f⟩ v = .ok b' ∧ b.SameShape b' ∧ b'.WF ∧ b'.Writable ∧
      ∀ c' f', c' < b.channelCount → f' < b.frameCount →
        b'.sample? c' f' = if c' = c ∧ f' = f then some v else b.sample? c' f' := by
  obtain ⟨b', e1, e2, e3, e4, e5, e6⟩ := C29_write_one_sample b hw hm c f hc hf v
  refine ⟨b', e1, e2, e3, e4, ?_⟩
  intro c' f' h1 h2
  have hcc := e2.channelCount
  have hfc := e2.frameCount
  obtain ⟨x, hx, hx'⟩ := getSample_eq b' e3 c' f' (by omega) (by omega)
  obtain ⟨y, hy, hy'⟩ := getSample_eq b hw c' f' h1 h2
  by_cases h : c' = c ∧ f' = f
  · rw [if_pos h, hx]
    rw [h.1, h.2, e5] at hx'
    cases hx'
    rfl
  · rw [if_neg h, hx, hy]
    have := e6 c' f' h1 h2 (fun hh => h ⟨congrArg Prod.fst hh, congrArg Prod.snd hh⟩)
    rw [hx', hy'] at this
    cases this
    rfl

/-- The first `n` frames, when the input can be read at both channels. -/
theorem frames_ok (panValues : List ℝ) (input output : Buf ℝ) (ho : output.WF) (hw : output.Writable)
    (hc : 2 ≤ output.channelCount) (hp : output.frameCount ≤ panValues.length) (left right : Nat → ℝ)
    (hl : ∀ f < output.frameCount, input.getSample ⟨0, f⟩ = .ok (left f))
    (hr : ∀ f < output.frameCount, input.getSample ⟨1, f⟩ = .ok (right f))
    (n : Nat) (hn : n ≤ output.frameCount) :
    ∃ out, (List.range n).foldlM (fun output frame => processFrame panValues input output frame) output = .ok out ∧
      output.SameShape out ∧ out.WF ∧ out.Writable ∧
      ∀ c f, c < output.channelCount → f < output.frameCount → out.sample? c f =
        if f < n ∧ c = 0 then some (left f * leftGain (panValues.getD f 0))
        else if f < n ∧ c = 1 then some (right f * rightGain (panValues.getD f 0))
        else output.sample? c f := by
  induction n with
  | zero =>
    refine ⟨output, rfl, SameShape.refl _, ho, hw, ?_⟩
    intro c f _ _
    rw [if_neg (by omega), if_neg (by omega)]
  | succ n ih =>
    obtain ⟨out, e1, e2, e3, e4, e5⟩ := ih (by omega)
    have hcc := e2.channelCount
    have hfc := e2.frameCount
    obtain ⟨b1, c1, c2, c3, c4, c5⟩ := setSample_spec out e3 e4 0 n (by omega) (by omega)
      (left n * leftGain (panValues.getD n 0))
    have hcc1 := c2.channelCount
    have hfc1 := c2.frameCount
    obtain ⟨b2, d1, d2, d3, d4, d5⟩ := setSample_spec b1 c3 c4 1 n (by omega) (by omega)
      (right n * rightGain (panValues.getD n 0))
    refine ⟨b2, ?_, (e2.trans c2).trans d2, d3, d4, ?_⟩
    · rw [List.range_succ, List.foldlM_append, e1]
      simp only [List.foldlM_cons, List.foldlM_nil, bind_pure]
      show processFrame panValues input out n = .ok b2
      unfold processFrame
      have hidx : Buf.index panValues n = .ok (panValues.getD n 0) := by
        rw [index_ok (by omega : n < panValues.length), List.getD_eq_getElem?_getD,
          List.getElem?_eq_getElem (by omega : n < panValues.length)]
        rfl
      simp only [hidx, hl n (by omega), hr n (by omega), bind, Except.bind, c1, d1]
    · intro c f hc' hf'
      rw [d5 c f (by omega) (by omega), c5 c f (by omega) (by omega), e5 c f hc' hf']
      by_cases hfn : f = n
      · subst hfn
        by_cases h0 : c = 0
        · rw [if_neg (by omega), if_pos ⟨h0, rfl⟩, if_pos ⟨by omega, h0⟩]
        · by_cases h1 : c = 1
          · rw [if_pos ⟨h1, rfl⟩, if_neg (by omega), if_pos ⟨by omega, h1⟩]
          · rw [if_neg (by omega), if_neg (by omega), if_neg (by omega), if_neg (by omega), if_neg (by omega),
              if_neg (by omega)]
      · rw [if_neg (by omega), if_neg (by omega)]
        have : (f < n ↔ f < n + 1) := by omega
        simp only [this]

end Pan
end Rawdio
