import Mathlib.Analysis.SpecialFunctions.Trigonometric.Bounds
import Verif.Lemmas.SecondOrder
import Verif.Spec.Biquad

/-! # Lemmas about the coefficients and the difference equation of the filter -/

namespace Rawdio
namespace Biquad

open SecondOrder

theorem scaled_inside (a0 a1 a2 b0 b1 b2 : ℝ) (h0 : 0 < a0) (h1 : a2 < a0) (h2 : a1 < a0 + a2) (h3 : -(a0 + a2) < a1) :
    Inside (scaled a0 a1 a2 b0 b1 b2).a1 (scaled a0 a1 a2 b0 b1 b2).a2 := by
  simp only [scaled, Inside, mul_one_div]
  refine ⟨by rwa [div_lt_one h0], ?_⟩
  rw [abs_lt]
  constructor
  · rw [lt_div_iff₀ h0, neg_mul, add_mul, div_mul_cancel₀ _ h0.ne', one_mul]; exact h3
  · rw [div_lt_iff₀ h0, add_mul, div_mul_cancel₀ _ h0.ne', one_mul]; exact h2

theorem omega_range (p : Settings) (sampleRate : Nat) (h : Proper p sampleRate) :
    0 < omega p.frequency sampleRate ∧ omega p.frequency sampleRate < Real.pi := by
  obtain ⟨h1, h2, _, _⟩ := h
  have hr : (0 : ℝ) < sampleRate := by linarith
  have hpi := Real.pi_pos
  unfold omega
  refine ⟨by positivity, ?_⟩
  rw [div_lt_iff₀ hr]
  nlinarith

/-- The sine and cosine of an angle strictly between 0 and π. -/
theorem trig_range (w : ℝ) (h : 0 < w ∧ w < Real.pi) :
    0 < Real.sin w ∧ -1 < Real.cos w ∧ Real.cos w < 1 ∧ Real.sin w ^ 2 = 1 - Real.cos w ^ 2 := by
  have hs := Real.sin_pos_of_pos_of_lt_pi h.1 h.2
  have hsq := Real.sin_sq w
  have : Real.cos w ^ 2 < 1 := by nlinarith
  have := abs_lt.mp ((sq_lt_one_iff_abs_lt_one _).mp this)
  exact ⟨hs, this.1, this.2, hsq⟩

theorem inside (type : FilterType) (p : Settings) (sampleRate : Nat) (h : Proper p sampleRate) :
    Inside (calculate type p sampleRate).a1 (calculate type p sampleRate).a2 := by
  obtain ⟨hs, hc1, hc2, -⟩ := trig_range _ (omega_range p sampleRate h)
  obtain ⟨_, _, hq, hg⟩ := h
  have halpha : 0 < Real.sin (omega p.frequency sampleRate) / (2 * p.q) := by positivity
  have ha : 0 < √p.shelfGain := Real.sqrt_pos.mpr hg
  have hb : 0 < √(2 * √p.shelfGain) * Real.sin (omega p.frequency sampleRate) :=
    mul_pos (Real.sqrt_pos.mpr (by linarith)) hs
  have hb' : 0 < √(√p.shelfGain + √p.shelfGain) * Real.sin (omega p.frequency sampleRate) :=
    mul_pos (Real.sqrt_pos.mpr (by linarith)) hs
  cases type
  · exact scaled_inside _ _ _ _ _ _ (by linarith) (by linarith) (by linarith) (by linarith)
  · exact scaled_inside _ _ _ _ _ _ (by linarith) (by linarith) (by linarith) (by linarith)
  · exact scaled_inside _ _ _ _ _ _ (by linarith) (by linarith) (by linarith) (by linarith)
  · exact scaled_inside _ _ _ _ _ _ (by linarith) (by linarith) (by linarith) (by linarith)
  all_goals
    simp only [calculate, highShelf, lowShelf, Level.fromLinear]
    generalize Real.cos (omega p.frequency sampleRate) = c at *
    generalize √p.shelfGain = a at *
    refine scaled_inside _ _ _ _ _ _ ?_ ?_ ?_ ?_ <;> nlinarith

theorem flush_near (x : ℝ) : |flush x - x| ≤ 1 / 10 ^ 8 := by
  unfold flush
  split
  · rw [zero_sub, abs_neg]
    assumption
  · simp

theorem flush_le (x : ℝ) : |flush x| ≤ |x| := by
  unfold flush
  split
  · simp
  · exact le_rfl

theorem flush_flush (x : ℝ) : flush (flush x) = flush x := by
  by_cases h : |x| ≤ 1 / 10 ^ 8
  · have : flush x = 0 := if_pos h
    rw [this]
    exact if_pos (by norm_num)
  · have : flush x = x := if_neg h
    rw [this, this]

theorem denormal_eq (x : ℝ) : denormal x = flush x := by
  unfold denormal flush
  simp only [abs_le]

theorem flush_zero : flush 0 = 0 := if_pos (by norm_num)

theorem flush_big {x : ℝ} (h : 1 / 10 ^ 8 < |x|) : flush x = x := if_neg (not_le.mpr h)

theorem flush_small {x : ℝ} (h : |x| ≤ 1 / 10 ^ 8) : flush x = 0 := if_pos h

/-- Filters with their poles inside the unit circle are stable. -/
theorem stable (c : Coefficients) (h : Inside c.a1 c.a2) : Stable c := by
  obtain ⟨C, hC, hb⟩ := bounded c.a1 c.a2 h
  refine ⟨C * (2 * (|c.b0| + |c.b1| + |c.b2|) + |c.a1| * |c.b0| + |c.a1| + |c.a2| + |c.b0|), fun x M hx n => ?_⟩
  have hM : 0 ≤ M := (abs_nonneg _).trans (hx 0)
  have he : (0 : ℝ) ≤ 1 / 10 ^ 8 := by norm_num
  have hnear := flush_near
  have ha : ∀ (b v : ℝ) (u : ℝ), |v| ≤ u → |b * v| ≤ |b| * u := by
    intro b v u hv
    rw [abs_mul]
    exact mul_le_mul_of_nonneg_left hv (abs_nonneg _)
  have hfx : ∀ n, |flush (x n)| ≤ M := fun n => (flush_le _).trans (hx n)
  set y := response (fun _ => c) x with hy
  have hy0 : |y 0| ≤ |c.b0| * M := by
    rw [hy, response]
    exact ha _ _ _ (hx 0)
  have hy1 : |y 1| ≤ |c.b0| * M + |c.b1| * M + |c.a1| * (|c.b0| * M) := by
    have : y 1 = c.b0 * x 1 + c.b1 * flush (x 0) - c.a1 * flush (y 0) := rfl
    rw [this]
    have t1 := ha c.b0 _ _ (hx 1)
    have t2 := ha c.b1 _ _ (hfx 0)
    have t3 := ha c.a1 _ _ ((flush_le (y 0)).trans hy0)
    have := abs_sub (c.b0 * x 1 + c.b1 * flush (x 0)) (c.a1 * flush (y 0))
    have := abs_add_le (c.b0 * x 1) (c.b1 * flush (x 0))
    linarith
  have hrec : ∀ n, y (n + 2) = -c.a1 * y (n + 1) - c.a2 * y n + (c.b0 * x (n + 2) + c.b1 * flush (x (n + 1)) +
      c.b2 * flush (x n) - c.a1 * (flush (y (n + 1)) - y (n + 1)) - c.a2 * (flush (y n) - y n)) := by
    intro n
    rw [hy, response]
    ring
  generalize (1 : ℝ) / 10 ^ 8 = ε at *
  have hd : ∀ n, |c.b0 * x (n + 2) + c.b1 * flush (x (n + 1)) +
      c.b2 * flush (x n) - c.a1 * (flush (y (n + 1)) - y (n + 1)) - c.a2 * (flush (y n) - y n)| ≤
      (|c.b0| + |c.b1| + |c.b2|) * M + (|c.a1| + |c.a2|) * ε := by
    intro n
    have t1 := ha c.b0 _ _ (hx (n + 2))
    have t2 := ha c.b1 _ _ (hfx (n + 1))
    have t3 := ha c.b2 _ _ (hfx n)
    have t4 := ha c.a1 _ _ (hnear (y (n + 1)))
    have t5 := ha c.a2 _ _ (hnear (y n))
    rw [abs_le] at *
    constructor <;> linarith [t1.1, t1.2, t2.1, t2.2, t3.1, t3.2, t4.1, t4.2, t5.1, t5.2]
  have key := hb y _ _ hrec hd n
  have hp1 : 0 ≤ |c.a1| * |c.b0| := mul_nonneg (abs_nonneg _) (abs_nonneg _)
  have hle : |y 0| + |y 1| + ((|c.b0| + |c.b1| + |c.b2|) * M + (|c.a1| + |c.a2|) * ε) ≤
      (2 * (|c.b0| + |c.b1| + |c.b2|) + |c.a1| * |c.b0| + |c.a1| + |c.a2| + |c.b0|) * (M + ε) := by
    have q0 := mul_nonneg (abs_nonneg c.b0) he
    have q1 := mul_nonneg (abs_nonneg c.b1) he
    have q2 := mul_nonneg (abs_nonneg c.b2) he
    have q3 := mul_nonneg hp1 he
    have r1 := mul_nonneg (abs_nonneg c.a1) hM
    have r2 := mul_nonneg (abs_nonneg c.a2) hM
    have r3 := mul_nonneg (abs_nonneg c.b2) hM
    nlinarith
  calc |y n| ≤ _ := key
    _ ≤ C * ((2 * (|c.b0| + |c.b1| + |c.b2|) + |c.a1| * |c.b0| + |c.a1| + |c.a2| + |c.b0|) * (M + ε)) :=
        mul_le_mul_of_nonneg_left hle hC
    _ = _ := by ring

/-- A solution of the equation without the flush is what the filter tends to, up to a multiple of the threshold,
whatever happened before. -/
theorem tends_to (c : Coefficients) (h : Inside c.a1 c.a2) :
    ∃ C, 0 ≤ C ∧ ∀ (cs : ℕ → Coefficients) (x s : ℕ → ℝ) (N : ℕ), (∀ n ≥ N, cs n = c) →
      (∀ n ≥ N, s (n + 2) = c.b0 * x (n + 2) + c.b1 * x (n + 1) + c.b2 * x n - c.a1 * s (n + 1) - c.a2 * s n) →
      ∀ η > 0, ∃ N', ∀ n ≥ N', |response cs x n - s n| ≤ C * (1 / 10 ^ 8) + η := by
  obtain ⟨C, hC, hb⟩ := settles c.a1 c.a2 h
  refine ⟨C * (|c.b1| + |c.b2| + |c.a1| + |c.a2|), by positivity, fun cs x s N hcs hs η hη => ?_⟩
  set y := response cs x with hy
  have hrec : ∀ n ≥ N, y (n + 2) - s (n + 2) = -c.a1 * (y (n + 1) - s (n + 1)) - c.a2 * (y n - s n) +
      (c.b1 * (flush (x (n + 1)) - x (n + 1)) + c.b2 * (flush (x n) - x n) - c.a1 * (flush (y (n + 1)) - y (n + 1))
        - c.a2 * (flush (y n) - y n)) := by
    intro n hn
    rw [hs n hn, hy, response, hcs (n + 2) (by omega)]
    ring
  have hnear := flush_near
  generalize (1 : ℝ) / 10 ^ 8 = ε at *
  have ha : ∀ (b v : ℝ) (u : ℝ), |v| ≤ u → |b * v| ≤ |b| * u := by
    intro b v u hv
    rw [abs_mul]
    exact mul_le_mul_of_nonneg_left hv (abs_nonneg _)
  have hd : ∀ n ≥ N, |c.b1 * (flush (x (n + 1)) - x (n + 1)) + c.b2 * (flush (x n) - x n)
      - c.a1 * (flush (y (n + 1)) - y (n + 1)) - c.a2 * (flush (y n) - y n)| ≤
      (|c.b1| + |c.b2| + |c.a1| + |c.a2|) * ε := by
    intro n _
    have t2 := ha c.b1 _ _ (hnear (x (n + 1)))
    have t3 := ha c.b2 _ _ (hnear (x n))
    have t4 := ha c.a1 _ _ (hnear (y (n + 1)))
    have t5 := ha c.a2 _ _ (hnear (y n))
    rw [abs_le] at *
    constructor <;> linarith [t2.1, t2.2, t3.1, t3.2, t4.1, t4.2, t5.1, t5.2]
  obtain ⟨N', hN'⟩ := hb (fun n => y n - s n) _ _ N hrec hd η hη
  exact ⟨N', fun n hn => by have := hN' n hn; rwa [← mul_assoc] at this⟩

/-- The steady response to a sinusoid solves the equation. -/
theorem sinusoid_solves (c : Coefficients) (h : Inside c.a1 c.a2) (A θ φ : ℝ) (n : ℕ) :
    let s := fun n : ℕ => (A * atAngle c θ * Complex.exp ((θ * n + φ : ℝ) * Complex.I)).re
    let x := fun n : ℕ => A * Real.cos (θ * n + φ)
    s (n + 2) = c.b0 * x (n + 2) + c.b1 * x (n + 1) + c.b2 * x n - c.a1 * s (n + 1) - c.a2 * s n := by
  intro s x
  have hz : ‖Complex.exp (θ * Complex.I)‖ = 1 := Complex.norm_exp_ofReal_mul_I θ
  have hx : ∀ n, x n = (A * Complex.exp ((θ * n + φ : ℝ) * Complex.I)).re := by
    intro n
    rw [Complex.re_ofReal_mul, Complex.exp_ofReal_mul_I_re]
  have hden := ne_zero c.a1 c.a2 h _ hz.ge
  have hexp : ∀ k : ℕ, Complex.exp ((θ * (n + k : ℕ) + φ : ℝ) * Complex.I) =
      Complex.exp (θ * Complex.I) ^ k * Complex.exp ((θ * n + φ : ℝ) * Complex.I) := by
    intro k
    rw [← Complex.exp_nat_mul, ← Complex.exp_add]
    congr 1
    push_cast
    ring
  have h1 := hexp 1
  have h2 := hexp 2
  have hH : atAngle c θ * (Complex.exp (θ * Complex.I) ^ 2 + c.a1 * Complex.exp (θ * Complex.I) + c.a2) =
      c.b0 * Complex.exp (θ * Complex.I) ^ 2 + c.b1 * Complex.exp (θ * Complex.I) + c.b2 := by
    rw [atAngle, transfer, div_mul_cancel₀ _ hden]
  rw [hx, hx, hx]
  simp only [s]
  rw [h1, h2, pow_one]
  generalize atAngle c θ = H at *
  generalize Complex.exp (θ * Complex.I) = z at *
  generalize Complex.exp ((θ * n + φ : ℝ) * Complex.I) = e at *
  simp only [← Complex.re_ofReal_mul, ← Complex.add_re, ← Complex.sub_re]
  congr 1
  linear_combination (A * e) * hH

/-- The squared norm of the polynomial on the unit circle. -/
theorem normSq_poly (b0 b1 b2 θ : ℝ) :
    Complex.normSq (b0 * Complex.exp (θ * Complex.I) ^ 2 + b1 * Complex.exp (θ * Complex.I) + b2) =
      ((b0 + b2) * Real.cos θ + b1) ^ 2 + ((b0 - b2) * Real.sin θ) ^ 2 := by
  have hS := Real.sin_sq θ
  have e : Complex.exp (θ * Complex.I) = ⟨Real.cos θ, Real.sin θ⟩ := by
    apply Complex.ext
    · rw [Complex.exp_ofReal_mul_I_re]
    · rw [Complex.exp_ofReal_mul_I_im]
  rw [e]
  generalize Real.cos θ = C at *
  generalize Real.sin θ = S at *
  rw [Complex.normSq_apply]
  simp only [pow_two, Complex.add_re, Complex.add_im, Complex.re_ofReal_mul, Complex.im_ofReal_mul, Complex.mul_re,
    Complex.mul_im, Complex.ofReal_re, Complex.ofReal_im]
  linear_combination (b0 ^ 2 * S ^ 2 + (-2 * b0 * (b0 * C ^ 2 + b1 * C + b2) + (2 * b0 * C + b1) ^ 2 - (b0 - b2) ^ 2)
    + b0 ^ 2 * (1 - C ^ 2)) * hS

/-- The squared gain of scaled coefficients. -/
theorem normSq_scaled (a0 a1 a2 b0 b1 b2 θ : ℝ) (h0 : a0 ≠ 0) :
    Complex.normSq (atAngle (scaled a0 a1 a2 b0 b1 b2) θ) =
      (((b0 + b2) * Real.cos θ + b1) ^ 2 + ((b0 - b2) * Real.sin θ) ^ 2) /
        (((a0 + a2) * Real.cos θ + a1) ^ 2 + ((a0 - a2) * Real.sin θ) ^ 2) := by
  rw [← normSq_poly, ← normSq_poly, ← Complex.normSq_div, atAngle, transfer]
  congr 1
  have h0' : (a0 : ℂ) ≠ 0 := by exact_mod_cast h0
  simp only [scaled]
  push_cast
  generalize Complex.exp (θ * Complex.I) = z
  rw [← mul_div_mul_left _ _ h0']
  congr 1 <;> field_simp

theorem tan_half_sq (θ : ℝ) (h : Real.cos θ ≠ -1) : Real.tan (θ / 2) ^ 2 = (1 - Real.cos θ) / (1 + Real.cos θ) := by
  have h1 : Real.cos θ = 2 * Real.cos (θ / 2) ^ 2 - 1 := by
    rw [← Real.cos_two_mul]
    ring_nf
  have h2 := Real.sin_sq (θ / 2)
  have h3 : Real.cos (θ / 2) ≠ 0 := by
    intro h0
    apply h
    rw [h1, h0]
    norm_num
  rw [Real.tan_eq_sin_div_cos, div_pow, h2, h1]
  field_simp
  ring

theorem warped_eq (ω θ : ℝ) (hω : Real.cos ω ≠ -1) (hθ : Real.cos θ ≠ -1) :
    warped ω θ = ((1 - Real.cos θ) * (1 + Real.cos ω)) / ((1 + Real.cos θ) * (1 - Real.cos ω)) := by
  rw [warped, div_pow, tan_half_sq θ hθ, tan_half_sq ω hω, div_div_div_eq]

/-- The denominator shared by the pass filters and the notch. -/
theorem pass_denominator (c C s S q : ℝ) (hc2 : c < 1) (hC : -1 < C) (hs2 : s ^ 2 = 1 - c ^ 2) (hS2 : S ^ 2 = 1 - C ^ 2)
    (hq : 0 < q) :
    (((1 + s / (2 * q)) + (1 - s / (2 * q))) * C + -2 * c) ^ 2 + (((1 + s / (2 * q)) - (1 - s / (2 * q))) * S) ^ 2 =
      ((1 - c) * (1 + C)) ^ 2 * ((1 - ((1 - C) * (1 + c)) / ((1 + C) * (1 - c))) ^ 2 +
        ((1 - C) * (1 + c)) / ((1 + C) * (1 - c)) / q ^ 2) := by
  have h1 : (1 + C) ≠ 0 := by linarith
  have h2 : (1 - c) ≠ 0 := by linarith
  field_simp
  linear_combination 4 * S ^ 2 * hs2 + 4 * (1 - c ^ 2) * hS2

/-- The denominator of the low shelf, and the numerator of the high shelf. -/
theorem shelf_denominator (c C s S a beta : ℝ) (hs2 : s ^ 2 = 1 - c ^ 2) (hS2 : S ^ 2 = 1 - C ^ 2)
    (hb : beta ^ 2 = 2 * a) :
    ((((a + 1) + (a - 1) * c + beta * s) + ((a + 1) + (a - 1) * c - beta * s)) * C + -2 * ((a - 1) + (a + 1) * c)) ^ 2 +
      ((((a + 1) + (a - 1) * c + beta * s) - ((a + 1) + (a - 1) * c - beta * s)) * S) ^ 2 =
      4 * (((1 + C) * (1 - c)) ^ 2 + a ^ 2 * ((1 - C) * (1 + c)) ^ 2) := by
  linear_combination 4 * s ^ 2 * S ^ 2 * hb + 8 * a * S ^ 2 * hs2 + 8 * a * (1 - c ^ 2) * hS2

/-- The numerator of the low shelf, and the denominator of the high shelf. -/
theorem shelf_numerator (c C s S a beta : ℝ) (hs2 : s ^ 2 = 1 - c ^ 2) (hS2 : S ^ 2 = 1 - C ^ 2)
    (hb : beta ^ 2 = 2 * a) :
    ((((a + 1) - (a - 1) * c + beta * s) + ((a + 1) - (a - 1) * c - beta * s)) * C + 2 * ((a - 1) - (a + 1) * c)) ^ 2 +
      ((((a + 1) - (a - 1) * c + beta * s) - ((a + 1) - (a - 1) * c - beta * s)) * S) ^ 2 =
      4 * (a ^ 2 * ((1 + C) * (1 - c)) ^ 2 + ((1 - C) * (1 + c)) ^ 2) := by
  linear_combination 4 * s ^ 2 * S ^ 2 * hb + 8 * a * S ^ 2 * hs2 + 8 * a * (1 - c ^ 2) * hS2

theorem transfer_scaled (a0 a1 a2 b0 b1 b2 : ℝ) (z : ℂ) (h0 : a0 ≠ 0) :
    transfer (scaled a0 a1 a2 b0 b1 b2) z = (b0 * z ^ 2 + b1 * z + b2) / (a0 * z ^ 2 + a1 * z + a2) := by
  have h0' : (a0 : ℂ) ≠ 0 := by exact_mod_cast h0
  rw [transfer]
  simp only [scaled]
  push_cast
  rw [← mul_div_mul_left _ _ h0']
  congr 1 <;> field_simp

end Biquad
end Rawdio
