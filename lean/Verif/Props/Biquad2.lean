import Mathlib.Analysis.Real.Pi.Bounds
import Verif.Props.Biquad

/-! # Settings the parameters allow and the filter does not survive (C53) -/

namespace Rawdio
namespace Biquad

/-- The default settings at 48 kHz are proper and in range. -/
example : Proper ⟨1000, 1 / √2, 1⟩ 48000 := by
  refine ⟨by norm_num, by norm_num, by positivity, by norm_num⟩

theorem in_range_default (f g : ℝ) (h1 : 20 ≤ f ∧ f ≤ 20000) (h2 : 0 ≤ g ∧ g ≤ 10 ^ 5) : InRange ⟨f, 1 / √2, g⟩ := by
  have hsqrt : (1 : ℝ) ≤ √2 := by rw [Real.one_le_sqrt]; norm_num
  have hsqrt2 : √2 ≤ 2 := by rw [Real.sqrt_le_left (by norm_num)]; norm_num
  refine ⟨h1, ⟨?_, ?_⟩, h2⟩
  · show 1 / 10 ≤ 1 / √2
    rw [div_le_div_iff₀ (by norm_num) (by linarith)]; linarith
  · show 1 / √2 ≤ 10
    rw [div_le_iff₀ (by linarith)]; linarith

/-! ## Above half the sample rate -/

theorem lowPass_32k : calculate .lowPass ⟨20000, 1 / √2, 1⟩ 32000 = ⟨2 * √2, 3, 1 + √2 / 2, 2 + √2, 1 + √2 / 2⟩ := by
  have hw : omega 20000 32000 = Real.pi / 4 + Real.pi := by
    unfold omega
    ring
  have hs := Real.sq_sqrt (show (0 : ℝ) ≤ 2 by norm_num)
  have hp : 0 < √2 := by positivity
  simp only [calculate, lowPass]
  push_cast
  rw [hw, Real.cos_add_pi, Real.sin_add_pi, Real.cos_pi_div_four, Real.sin_pi_div_four]
  have ha : -(√2 / 2) / (2 * (1 / √2)) = -(1 / 2) := by
    field_simp
    linarith
  rw [ha]
  simp only [scaled]
  congr 1 <;> ring

/-- The energy of two samples under the recurrence at 20 kHz and 32 kHz. -/
noncomputable def energy (u v : ℝ) : ℝ := (u + √2 * v) ^ 2 + v ^ 2

theorem energy_step (u v : ℝ) : energy (-(2 * √2) * u - 3 * v) u = 3 * energy u v := by
  have hs := Real.sq_sqrt (show (0 : ℝ) ≤ 2 by norm_num)
  unfold energy
  linear_combination (u ^ 2 - 3 * v ^ 2) * hs

theorem energy_flush (u v : ℝ) (h : 1 ≤ energy u v) : 2 / 3 * energy u v ≤ energy (flush u) v := by
  have hs := Real.sq_sqrt (show (0 : ℝ) ≤ 2 by norm_num)
  have hp : 0 < √2 := by positivity
  have hp2 : √2 < 2 := by nlinarith
  by_cases hu : |u| ≤ 1 / 10 ^ 8
  · rw [flush_small hu]
    unfold energy at *
    have h1 := abs_le.mp hu
    have hv : 1 / 16 ≤ v ^ 2 := by
      by_contra hv
      push Not at hv
      have hv1 : |v| < 1 / 4 := by
        have : v ^ 2 < (1 / 4) ^ 2 := by linarith
        exact abs_lt_of_sq_lt_sq this (by norm_num)
      have hv2 := abs_lt.mp hv1
      have hb : |u + √2 * v| ≤ 51 / 100 := by
        rw [abs_le]
        constructor <;> nlinarith [h1.1, h1.2, hv2.1, hv2.2]
      have := sq_le_sq' (abs_le.mp hb).1 (abs_le.mp hb).2
      nlinarith
    have huv : |u * v| ≤ 1 / 10 ^ 8 * |v| := by
      rw [abs_mul]
      exact mul_le_mul_of_nonneg_right hu (abs_nonneg _)
    have hv4 : 1 / 4 ≤ |v| := by
      by_contra hc
      push Not at hc
      have := sq_abs v
      nlinarith [abs_nonneg v]
    have huv2 : |u * v| ≤ 1 / 10 ^ 6 * v ^ 2 := by
      have := sq_abs v
      nlinarith [abs_nonneg v]
    have huu : u ^ 2 ≤ 1 / 10 ^ 8 := by
      have := sq_abs u
      nlinarith [abs_nonneg u]
    have h4 := (abs_le.mp huv2).2
    have h5 : √2 * (u * v) ≤ 2 * (1 / 10 ^ 6 * v ^ 2) := by
      have := (abs_le.mp huv2).1
      nlinarith
    nlinarith
  · rw [flush_big (not_le.mp hu)]
    have : 0 ≤ energy u v := by linarith
    linarith

/-- C53, violated: 20 kHz is allowed at every sample rate.  At 32 kHz, with the default quality, the low pass answers
a single sample of 1 with an output that grows beyond every bound. -/
theorem C53_above_nyquist_violated : ∃ (p : Settings) (sampleRate : Nat), InRange p ∧ 0 < sampleRate ∧
    ∃ x : ℕ → ℝ, (∀ n, |x n| ≤ 1) ∧ ∀ M : ℝ, ∃ n, M < |response (fun _ => calculate .lowPass p sampleRate) x n| := by
  refine ⟨⟨20000, 1 / √2, 1⟩, 32000, in_range_default _ _ (by norm_num) (by norm_num), by norm_num,
    fun n => if n = 0 then 1 else 0, fun n => by show |if n = 0 then (1 : ℝ) else 0| ≤ 1; split <;> simp, fun M => ?_⟩
  rw [lowPass_32k]
  have hs := Real.sq_sqrt (show (0 : ℝ) ≤ 2 by norm_num)
  have hp : 1 < √2 := by nlinarith [Real.sqrt_nonneg 2]
  have hp2 : √2 < 3 / 2 := by nlinarith [Real.sqrt_nonneg 2]
  set c : Coefficients := ⟨2 * √2, 3, 1 + √2 / 2, 2 + √2, 1 + √2 / 2⟩ with hc
  set x : ℕ → ℝ := fun n => if n = 0 then 1 else 0 with hx
  set y := response (fun _ => c) x with hy
  have hf1 : flush 1 = 1 := flush_big (by norm_num)
  have y0 : y 0 = 1 + √2 / 2 := by
    show c.b0 * x 0 = _
    simp [hc, hx]
  have f0 : flush (y 0) = y 0 := flush_big (by rw [y0, abs_of_pos (by linarith)]; norm_num; linarith)
  have y1 : y 1 = -√2 := by
    show c.b0 * x 1 + c.b1 * flush (x 0) - c.a1 * flush (y 0) = _
    rw [f0, y0]
    simp only [hc, hx, if_true, one_ne_zero, if_false, hf1]
    linear_combination -hs
  have f1 : flush (y 1) = y 1 := flush_big (by rw [y1, abs_neg, abs_of_pos (by linarith)]; norm_num; linarith)
  have y2 : y 2 = 2 - √2 := by
    show c.b0 * x 2 + c.b1 * flush (x 1) + c.b2 * flush (x 0) - c.a1 * flush (y 1) - c.a2 * flush (y 0) = _
    rw [f0, f1, y0, y1]
    simp only [hc, hx, if_true, one_ne_zero, if_false, hf1, OfNat.ofNat_ne_zero, flush_zero]
    linear_combination 2 * hs
  have f2 : flush (y 2) = y 2 := flush_big (by rw [y2, abs_of_pos (by linarith)]; norm_num; linarith)
  have hrec : ∀ n, y (n + 3) = -(2 * √2) * flush (y (n + 2)) - 3 * flush (y (n + 1)) := by
    intro n
    show c.b0 * x (n + 3) + c.b1 * flush (x (n + 2)) + c.b2 * flush (x (n + 1)) - c.a1 * flush (y (n + 2)) -
      c.a2 * flush (y (n + 1)) = _
    have hz : ∀ k, x (k + 1) = 0 := fun k => if_neg (by omega)
    rw [hz, hz, hz, flush_zero]
    simp only [hc]
    ring
  have hE : ∀ n, 2 ^ n ≤ energy (flush (y (n + 2))) (flush (y (n + 1))) := by
    intro n
    induction n with
    | zero =>
      rw [f1, f2, y1, y2]
      unfold energy
      nlinarith
    | succ n ih =>
      have h1 : (1 : ℝ) ≤ 2 ^ n := one_le_pow₀ (by norm_num)
      have h2 := energy_step (flush (y (n + 2))) (flush (y (n + 1)))
      rw [← hrec n] at h2
      have h3 := energy_flush (y (n + 3)) (flush (y (n + 2))) (by linarith)
      rw [h2] at h3
      rw [pow_succ]
      linarith
  by_contra hM
  push Not at hM
  have hM0 : 0 ≤ M := (abs_nonneg _).trans (hM 0)
  obtain ⟨n, hn⟩ := pow_unbounded_of_one_lt (20 * M ^ 2) (show (1 : ℝ) < 2 by norm_num)
  have h1 := hE n
  have hb : ∀ k, |flush (y k)| ≤ M := fun k => (flush_le _).trans (hM k)
  have hu := abs_le.mp (hb (n + 2))
  have hv := abs_le.mp (hb (n + 1))
  unfold energy at h1
  generalize flush (y (n + 2)) = u at *
  generalize flush (y (n + 1)) = v at *
  have h2 : (u + √2 * v) ^ 2 ≤ (3 * M) ^ 2 := sq_le_sq' (by nlinarith) (by nlinarith)
  have h3 : v ^ 2 ≤ M ^ 2 := sq_le_sq' hv.1 hv.2
  nlinarith

/-- C53, violated: a shelf gain of 0 is allowed.  On a low shelf at any proper frequency, one sample of 1 followed by
the gain going to 0 makes the output grow without bound, in alternating signs, whatever the input does from then
on. -/
theorem C53_shelf_gain_zero_violated (f q : ℝ) (sampleRate : Nat) (h : 0 < f ∧ f < sampleRate / 2) (x : ℕ → ℝ)
    (hx : x 0 = 1) (n : ℕ) :
    response (fun n => calculate .lowShelf ⟨f, q, if n = 0 then 1 else 0⟩ sampleRate) x n = (-1) ^ n * (n + 1) := by
  obtain ⟨hs, hc1, hc2, -⟩ := trig_range _ (omega_range ⟨f, 1, 1⟩ sampleRate ⟨h.1, h.2, one_pos, one_pos⟩)
  have hc0 : (calculate .lowShelf ⟨f, q, 1⟩ sampleRate).b0 = 1 := by
    simp only [calculate, lowShelf, Level.fromLinear, scaled, Real.sqrt_one]
    generalize Real.cos (omega f sampleRate) = c at *
    have : 0 < √(2 * 1) * Real.sin (omega f sampleRate) := mul_pos (Real.sqrt_pos.mpr (by norm_num)) hs
    generalize √(2 * 1) * Real.sin (omega f sampleRate) = s at *
    have e : (1 : ℝ) + 1 + (1 - 1) * c + s = 2 + s := by ring
    have e' : (1 : ℝ) * (1 + 1 - (1 - 1) * c + s) = 2 + s := by ring
    rw [e, e', mul_one_div, div_self (by linarith)]
  have hc : calculate .lowShelf ⟨f, q, 0⟩ sampleRate = ⟨2, 1, 0, 0, 0⟩ := by
    simp only [calculate, lowShelf, Level.fromLinear, scaled, Real.sqrt_zero, mul_zero, zero_mul, add_zero, sub_zero]
    generalize Real.cos (omega f sampleRate) = c at *
    have : 1 - c ≠ 0 := by linarith
    have e : (0 : ℝ) + 1 + (0 - 1) * c = 1 - c := by ring
    rw [e]
    congr 1 <;> field_simp
    ring
  set cs : ℕ → Coefficients := fun n => calculate .lowShelf ⟨f, q, if n = 0 then 1 else 0⟩ sampleRate
  have hcs : ∀ n : ℕ, cs (n + 1) = ⟨2, 1, 0, 0, 0⟩ := by
    intro n
    show calculate .lowShelf ⟨f, q, if n + 1 = 0 then 1 else 0⟩ sampleRate = _
    rw [if_neg (by omega), hc]
  set y := response cs x with hy
  have key : ∀ n, y n = (-1) ^ n * (n + 1) ∧ y (n + 1) = (-1) ^ (n + 1) * ((n + 1 : ℕ) + 1) := by
    have hflush : ∀ n : ℕ, flush ((-1) ^ n * ((n : ℝ) + 1)) = (-1) ^ n * ((n : ℝ) + 1) := by
      intro n
      apply flush_big
      rw [abs_mul, abs_pow, abs_neg, abs_one, one_pow, one_mul, abs_of_pos (by positivity)]
      have : (0 : ℝ) ≤ n := Nat.cast_nonneg n
      norm_num
      linarith
    have h0 : y 0 = 1 := by
      show (calculate .lowShelf ⟨f, q, if 0 = 0 then 1 else 0⟩ sampleRate).b0 * x 0 = 1
      rw [if_pos rfl, hc0, hx, one_mul]
    intro n
    induction n with
    | zero =>
      refine ⟨by rw [h0]; norm_num, ?_⟩
      have : y 1 = 0 * x 1 + 0 * flush (x 0) - 2 * flush (y 0) := by
        show (cs (0 + 1)).b0 * x 1 + (cs (0 + 1)).b1 * flush (x 0) - (cs (0 + 1)).a1 * flush (y 0) = _
        rw [hcs 0]
      have hf1 : flush 1 = 1 := flush_big (by norm_num)
      rw [zero_add, this, h0, hf1]
      norm_num
    | succ n ih =>
      refine ⟨ih.2.trans (by push_cast; ring), ?_⟩
      have : y (n + 2) = 0 * x (n + 2) + 0 * flush (x (n + 1)) + 0 * flush (x n) - 2 * flush (y (n + 1)) - 1 * flush (y n) := by
        rw [hy, response, hcs (n + 1)]
      have g1 := hflush (n + 1)
      rw [show n + 1 + 1 = n + 2 from rfl, this, ih.1, ih.2, hflush n, g1]
      push_cast
      ring
  exact (key n).1

example : (0 : ℝ) < 1000 ∧ (1000 : ℝ) < (48000 : ℕ) / 2 := by norm_num

/-- C53, violated: the flush of small values is not harmless.  With the cutoff at 20 Hz at 192 kHz the low pass has
gain 1 at 0 Hz, but a constant of 0.02 does not come through at all. -/
theorem C53_small_signals_violated : ∃ (p : Settings) (sampleRate : Nat), InRange p ∧ Proper p sampleRate ∧
    atAngle (calculate .lowPass p sampleRate) 0 = 1 ∧
    ∀ n, |response (fun _ => calculate .lowPass p sampleRate) (fun _ => 1 / 50) n| ≤ 1 / 10 ^ 8 := by
  have hprop : Proper ⟨20, 1 / √2, 1⟩ 192000 := ⟨by norm_num, by norm_num, by positivity, by norm_num⟩
  refine ⟨⟨20, 1 / √2, 1⟩, 192000, in_range_default _ _ (by norm_num) (by norm_num), hprop, ?_, ?_⟩
  · have := (C53_ends .lowPass _ _ hprop).1
    rw [this]
    simp [dcGain]
  · obtain ⟨hs, hc1, hc2, -⟩ := trig_range _ (omega_range _ _ hprop)
    have hw : omega 20 (192000 : ℕ) = Real.pi / 4800 := by
      unfold omega
      push_cast
      ring
    have hb : 0 ≤ (calculate .lowPass ⟨20, 1 / √2, 1⟩ 192000).b0 ∧
        4 * (calculate .lowPass ⟨20, 1 / √2, 1⟩ 192000).b0 ≤ 5 / 10 ^ 7 ∧
        (calculate .lowPass ⟨20, 1 / √2, 1⟩ 192000).b1 = 2 * (calculate .lowPass ⟨20, 1 / √2, 1⟩ 192000).b0 ∧
        (calculate .lowPass ⟨20, 1 / √2, 1⟩ 192000).b2 = (calculate .lowPass ⟨20, 1 / √2, 1⟩ 192000).b0 := by
      simp only [calculate, lowPass, scaled]
      have hcos := Real.one_sub_sq_div_two_le_cos (x := omega 20 (192000 : ℕ))
      have halpha : 0 < Real.sin (omega 20 (192000 : ℕ)) / (2 * (1 / √2)) := by positivity
      have hpi := Real.pi_lt_d2
      have hpi0 := Real.pi_pos
      have hsq : (omega 20 (192000 : ℕ)) ^ 2 ≤ 5 / 10 ^ 7 := by
        rw [hw, div_pow]
        rw [div_le_div_iff₀ (by norm_num) (by norm_num)]
        nlinarith
      generalize Real.sin (omega 20 (192000 : ℕ)) / (2 * (1 / √2)) = α at *
      generalize hc : Real.cos (omega 20 (192000 : ℕ)) = c at *
      have h1 : 0 < 1 / (1 + α) := by positivity
      have h2 : 1 / (1 + α) ≤ 1 := by
        rw [div_le_one (by linarith)]
        linarith
      have h3 : 0 ≤ 1 - c := by linarith
      refine ⟨by positivity, ?_, by ring, trivial⟩
      have : (1 - c) * (1 / (1 + α)) ≤ (1 - c) * 1 := mul_le_mul_of_nonneg_left h2 h3
      nlinarith
    obtain ⟨h1, h2, h3, h4⟩ := hb
    generalize calculate .lowPass ⟨20, 1 / √2, 1⟩ 192000 = c at *
    have hx : flush (1 / 50) = 1 / 50 := flush_big (by norm_num)
    have key : ∀ n, |response (fun _ => c) (fun _ => 1 / 50) n| ≤ 1 / 10 ^ 8 ∧
        |response (fun _ => c) (fun _ => 1 / 50) (n + 1)| ≤ 1 / 10 ^ 8 := by
      have e0 : |response (fun _ => c) (fun _ => 1 / 50) 0| ≤ 1 / 10 ^ 8 := by
        rw [response, abs_le]
        constructor <;> linarith
      intro n
      induction n with
      | zero =>
        refine ⟨e0, ?_⟩
        rw [zero_add, response, flush_small e0, hx, h3, abs_le]
        constructor <;> linarith
      | succ n ih =>
        refine ⟨ih.2, ?_⟩
        rw [response, flush_small ih.1, flush_small ih.2, hx, h3, h4, abs_le]
        constructor <;> linarith
    exact fun n => (key n).1

end Biquad
end Rawdio
