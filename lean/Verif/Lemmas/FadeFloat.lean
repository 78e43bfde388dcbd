import Verif.Model.FadeFloat
import Verif.Spec.FadeFloat
import Verif.Lemmas.GainFloat

/-! # Lemmas about the crossfade of the sampler with `f32` samples -/

namespace Rawdio
namespace Fade

/-- The shares of the old and the new sound add up to 1. -/
theorem share_mirror {n p : Nat} (hn : 0 < n) (hp : p ≤ n) : share n (n - p) = 1 - share n p := by
  unfold share
  have hn' : (n : ℝ) ≠ 0 := by positivity
  rw [Nat.cast_sub hp, show (2 * ((n : ℝ) - p) / n - 1) * (Real.pi / 2) = -((2 * (p : ℝ) / n - 1) * (Real.pi / 2)) by
    field_simp
    ring, Real.sin_neg]
  ring

theorem share_last {n : Nat} (hn : 0 < n) : share n n = 1 := by
  unfold share
  have hn' : (n : ℝ) ≠ 0 := by positivity
  rw [show (2 * (n : ℝ) / n - 1) * (Real.pi / 2) = Real.pi / 2 by
    field_simp
    ring, Real.sin_pi_div_two]
  norm_num

/-- Every value of the fade, the 1 after its end included. -/
theorem value_near {fade : Fade Sample32} {n : Nat} (h : Tabulated fade n) (hn : 0 < n) {p : Nat} (hp : p ≤ n) :
    0 ≤ (fade.value p).1 ∧ (fade.value p).1 ≤ 1 ∧ |((fade.value p).1 : ℝ) - share n p| ≤ 1 / 2 ^ 24 := by
  have hl : fade.values.length = n := h.len
  rcases Nat.lt_or_eq_of_le hp with hlt | rfl
  · have e : fade.values[p]? = some (fade.values[p]'(by omega)) := List.getElem?_eq_getElem _
    have : fade.value p = fade.values[p]'(by omega) := by
      unfold value
      rw [e]
      rfl
    rw [this]
    exact h.near p _ e
  · have : fade.value p = 1 := by
      unfold value
      rw [List.getElem?_eq_none (by omega)]
      rfl
    rw [this, share_last hn, Sample32.one_val]
    norm_num

/-- Two products and their sum. -/
theorem sum_near (u w a b : Sample32) (u0 : 0 ≤ u.1) (u1 : u.1 ≤ 1) (w0 : 0 ≤ w.1) (w1 : w.1 ≤ 1) :
    |(w * a + u * b).1 - (w.1 * a.1 + u.1 * b.1)| ≤ (|a.1| + |b.1|) * (3 / 2 ^ 24) + 1 / 2 ^ 148 := by
  have r1 := Sample32.mul_near w a
  have r2 := Sample32.mul_near u b
  have r3 := Float32.round_rel ((w * a).1 + (u * b).1)
  rw [Sample32.add_val]
  rw [abs_of_nonneg w0] at r1
  rw [abs_of_nonneg u0] at r2
  have ha := abs_nonneg a.1
  have hb := abs_nonneg b.1
  have p1 := mul_le_of_le_one_left ha w1
  have p2 := mul_le_of_le_one_left hb u1
  have q1 : |w.1 * a.1| ≤ |a.1| := by rwa [abs_mul, abs_of_nonneg w0]
  have q2 : |u.1 * b.1| ≤ |b.1| := by rwa [abs_mul, abs_of_nonneg u0]
  generalize (w * a).1 = x at *
  generalize (u * b).1 = y at *
  generalize w.1 * |a.1| = s at *
  generalize u.1 * |b.1| = t at *
  generalize w.1 * a.1 = wa at *
  generalize u.1 * b.1 = ub at *
  generalize Float32.round (x + y) = z at *
  have k1 : |x + y - (wa + ub)| ≤ |x - wa| + |y - ub| := by
    have := abs_add_le (x - wa) (y - ub)
    rwa [show x - wa + (y - ub) = x + y - (wa + ub) by ring] at this
  have k2 := abs_sub_le z (x + y) (wa + ub)
  have k3 : |x + y| ≤ |wa + ub| + |x + y - (wa + ub)| := by
    have := abs_add_le (wa + ub) (x + y - (wa + ub))
    rwa [add_sub_cancel] at this
  have k4 := abs_add_le wa ub
  have hu : (1 : ℚ) / 2 ^ 148 = 4 * (1 / 2 ^ 150) := by norm_num
  have hu0 : (0 : ℚ) ≤ 1 / 2 ^ 150 := by positivity
  rw [hu]
  generalize (1 : ℚ) / 2 ^ 150 = v at *
  generalize |a.1| = A at *
  generalize |b.1| = B at *
  norm_num at r1 r2 r3 ⊢
  linarith

theorem crossfade_ok (fade : Fade Sample32) (inFirst : Bool) {p : Nat} (hp : p ≤ fade.len) (old new : Sample32) :
    fade.crossfade inFirst p old new = .ok (fade.value (fade.len - p) * old + fade.value p * new) := by
  have h : fade.fadeOutValue p = .ok (fade.value (fade.len - p)) := by
    unfold fadeOutValue
    rw [if_neg (by omega)]
  unfold crossfade addOut addIn fadeInValue
  rw [h]
  cases inFirst
  · show Except.ok (0 + _ + _) = _
    rw [zero_add]
  · show Except.ok (0 + _ + _) = _
    rw [zero_add, Sample32.add_comm']

end Fade
end Rawdio
