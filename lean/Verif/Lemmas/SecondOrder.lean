import Mathlib.Analysis.Complex.Norm
import Mathlib.Analysis.SpecificLimits.Basic
import Mathlib.Analysis.SpecialFunctions.Pow.Real
import Mathlib.Tactic.LinearCombination
import Mathlib.Tactic.Linarith

/-! # Second order linear recurrences with poles inside the unit circle -/

namespace Rawdio
namespace SecondOrder

/-- A first order recurrence, its closed bound from a time on. -/
theorem first_bound (p : ℂ) (hp : ‖p‖ < 1) (w u : ℕ → ℂ) (N : ℕ) (h : ∀ n ≥ N, w (n + 1) = p * w n + u n) (U : ℝ)
    (hU : ∀ n ≥ N, ‖u n‖ ≤ U) (k : ℕ) : ‖w (N + k)‖ ≤ ‖p‖ ^ k * ‖w N‖ + U / (1 - ‖p‖) := by
  have h1 : 0 < 1 - ‖p‖ := by linarith
  have hU0 : 0 ≤ U := (norm_nonneg _).trans (hU N le_rfl)
  have key : U / (1 - ‖p‖) = ‖p‖ * (U / (1 - ‖p‖)) + U := by
    field_simp
    ring
  induction k with
  | zero =>
    have : 0 ≤ U / (1 - ‖p‖) := div_nonneg hU0 h1.le
    simpa using this
  | succ k ih =>
    rw [← Nat.add_assoc, h (N + k) (by omega)]
    calc ‖p * w (N + k) + u (N + k)‖ ≤ ‖p‖ * ‖w (N + k)‖ + ‖u (N + k)‖ := by
          refine (norm_add_le _ _).trans ?_
          rw [norm_mul]
      _ ≤ ‖p‖ * (‖p‖ ^ k * ‖w N‖ + U / (1 - ‖p‖)) + U :=
          add_le_add (mul_le_mul_of_nonneg_left ih (norm_nonneg _)) (hU _ (by omega))
      _ = ‖p‖ ^ (k + 1) * ‖w N‖ + U / (1 - ‖p‖) := by
          conv_rhs => rw [key]
          ring

/-- `u` is at most `U` in the long run. -/
def Settles (u : ℕ → ℂ) (U : ℝ) : Prop := ∀ η > 0, ∃ N, ∀ n ≥ N, ‖u n‖ ≤ U + η

theorem first_settles (p : ℂ) (hp : ‖p‖ < 1) (w u : ℕ → ℂ) (N : ℕ) (h : ∀ n ≥ N, w (n + 1) = p * w n + u n) (U : ℝ)
    (hU : Settles u U) : Settles w (U / (1 - ‖p‖)) := by
  intro η hη
  have h1 : 0 < 1 - ‖p‖ := by linarith
  obtain ⟨N1, hN1⟩ := hU (η / 2 * (1 - ‖p‖)) (by positivity)
  have hb := fun k => first_bound p hp w u (max N N1) (fun n hn => h n ((le_max_left _ _).trans hn))
    (U + η / 2 * (1 - ‖p‖)) (fun n hn => hN1 n ((le_max_right _ _).trans hn)) k
  have hlim : Filter.Tendsto (fun k => ‖p‖ ^ k * ‖w (max N N1)‖) Filter.atTop (nhds (0 * ‖w (max N N1)‖)) :=
    (tendsto_pow_atTop_nhds_zero_of_lt_one (norm_nonneg _) hp).mul_const _
  rw [zero_mul] at hlim
  obtain ⟨K, hK⟩ := (Metric.tendsto_atTop.mp hlim) (η / 2) (by positivity)
  refine ⟨max N N1 + K, fun n hn => ?_⟩
  obtain ⟨k, rfl⟩ := Nat.exists_eq_add_of_le hn
  have h2 := hb (K + k)
  rw [← Nat.add_assoc] at h2
  have h3 := hK (K + k) (by omega)
  rw [Real.dist_eq, sub_zero] at h3
  have h4 := (le_abs_self _).trans h3.le
  have h5 : (U + η / 2 * (1 - ‖p‖)) / (1 - ‖p‖) = U / (1 - ‖p‖) + η / 2 := by
    field_simp
  rw [h5] at h2
  linarith

/-- The conditions on the coefficients of `z ^ 2 + a1 z + a2` for both roots to be inside the unit circle. -/
def Inside (a1 a2 : ℝ) : Prop := a2 < 1 ∧ |a1| < 1 + a2

theorem roots (a1 a2 : ℝ) (h : Inside a1 a2) :
    ∃ p1 p2 : ℂ, p1 + p2 = -a1 ∧ p1 * p2 = a2 ∧ ‖p1‖ < 1 ∧ ‖p2‖ < 1 := by
  obtain ⟨h1, h2⟩ := h
  have h3 := abs_lt.mp h2
  rcases le_or_gt 0 (a1 ^ 2 - 4 * a2) with hd | hd
  · have hs := Real.sq_sqrt hd
    have hs0 := Real.sqrt_nonneg (a1 ^ 2 - 4 * a2)
    set s := √(a1 ^ 2 - 4 * a2) with hsdef
    have hb : s < 2 - |a1| := by
      have : |a1| < 2 := by linarith
      rw [hsdef, Real.sqrt_lt' (by linarith)]
      have := sq_abs a1
      nlinarith
    have ha := abs_le.mp (le_refl |a1|)
    refine ⟨((-a1 + s) / 2 : ℝ), ((-a1 - s) / 2 : ℝ), ?_, ?_, ?_, ?_⟩
    · push_cast; ring
    · rw [← Complex.ofReal_mul]
      congr 1
      nlinarith
    · rw [Complex.norm_real, Real.norm_eq_abs, abs_lt]
      constructor <;> linarith [ha.1, ha.2]
    · rw [Complex.norm_real, Real.norm_eq_abs, abs_lt]
      constructor <;> linarith [ha.1, ha.2]
  · have hd' : 0 ≤ 4 * a2 - a1 ^ 2 := by linarith
    have hs := Real.sq_sqrt hd'
    set s := √(4 * a2 - a1 ^ 2) with hsdef
    have hn : ∀ t : ℝ, t ^ 2 = s ^ 2 → ‖(⟨-a1 / 2, t / 2⟩ : ℂ)‖ < 1 := by
      intro t ht
      have : ‖(⟨-a1 / 2, t / 2⟩ : ℂ)‖ ^ 2 < 1 ^ 2 := by
        rw [Complex.sq_norm, Complex.normSq_mk]
        nlinarith
      exact lt_of_pow_lt_pow_left₀ 2 (by norm_num) this
    refine ⟨⟨-a1 / 2, s / 2⟩, ⟨-a1 / 2, -s / 2⟩, ?_, ?_, hn s rfl, hn (-s) (by ring)⟩
    · apply Complex.ext <;> simp <;> ring
    · apply Complex.ext
      · simp
        nlinarith
      · simp
        ring

/-- On and outside the unit circle the polynomial has no root. -/
theorem ne_zero (a1 a2 : ℝ) (h : Inside a1 a2) (z : ℂ) (hz : 1 ≤ ‖z‖) : z ^ 2 + a1 * z + a2 ≠ 0 := by
  obtain ⟨p1, p2, e1, e2, n1, n2⟩ := roots a1 a2 h
  have : z ^ 2 + a1 * z + a2 = (z - p1) * (z - p2) := by
    linear_combination z * e1 - e2
  rw [this]
  apply mul_ne_zero
  · intro h0
    rw [sub_eq_zero.mp h0] at hz
    linarith
  · intro h0
    rw [sub_eq_zero.mp h0] at hz
    linarith

/-- The recurrence stays in proportion to its start and what drives it. -/
theorem bounded (a1 a2 : ℝ) (h : Inside a1 a2) : ∃ C, 0 ≤ C ∧ ∀ (e d : ℕ → ℝ) (U : ℝ),
    (∀ n, e (n + 2) = -a1 * e (n + 1) - a2 * e n + d n) → (∀ n, |d n| ≤ U) →
    ∀ n, |e n| ≤ C * (|e 0| + |e 1| + U) := by
  obtain ⟨p1, p2, e1, e2, n1, n2⟩ := roots a1 a2 h
  have h1 : 0 < 1 - ‖p1‖ := by linarith
  have h2 : 0 < 1 - ‖p2‖ := by linarith
  refine ⟨1 + (1 + 1 / (1 - ‖p2‖)) / (1 - ‖p1‖), by positivity, fun e d U he hd n => ?_⟩
  have hU0 : 0 ≤ U := (abs_nonneg _).trans (hd 0)
  have hw : ∀ n, ((e (n + 2) : ℂ) - p1 * e (n + 1)) = p2 * ((e (n + 1) : ℂ) - p1 * e n) + d n := by
    intro n
    rw [he n]
    push_cast
    linear_combination (-(e (n + 1) : ℂ)) * e1 + (e n : ℂ) * e2
  have hbw := fun k => first_bound p2 n2 (fun n => (e (n + 1) : ℂ) - p1 * e n) (fun n => (d n : ℂ)) 0
    (fun n _ => hw n) U (fun n _ => by rw [Complex.norm_real]; exact hd n) k
  have hw0 : ‖(e 1 : ℂ) - p1 * e 0‖ ≤ |e 0| + |e 1| := by
    refine (norm_sub_le _ _).trans ?_
    rw [norm_mul, Complex.norm_real, Complex.norm_real, Real.norm_eq_abs, Real.norm_eq_abs]
    have := mul_le_of_le_one_left (abs_nonneg (e 0)) n1.le
    linarith
  have hbw' : ∀ k, ‖(e (k + 1) : ℂ) - p1 * e k‖ ≤ (|e 0| + |e 1|) + U / (1 - ‖p2‖) := by
    intro k
    have := hbw k
    simp only [Nat.zero_add] at this
    have hp : ‖p2‖ ^ k ≤ 1 := pow_le_one₀ (norm_nonneg _) n2.le
    have := mul_le_mul hp hw0 (norm_nonneg _) zero_le_one
    linarith
  have hbe := first_bound p1 n1 (fun n => (e n : ℂ)) (fun n => (e (n + 1) : ℂ) - p1 * e n) 0
    (fun n _ => by ring) _ (fun n _ => hbw' n) n
  simp only [Nat.zero_add, Complex.norm_real, Real.norm_eq_abs] at hbe
  have hp : ‖p1‖ ^ n * |e 0| ≤ |e 0| := mul_le_of_le_one_left (abs_nonneg _) (pow_le_one₀ (norm_nonneg _) n1.le)
  have a0 := abs_nonneg (e 0)
  have a1 := abs_nonneg (e 1)
  have k1 : U / (1 - ‖p2‖) ≤ (1 / (1 - ‖p2‖)) * (|e 0| + |e 1| + U) := by
    rw [one_div, div_eq_inv_mul]
    exact mul_le_mul_of_nonneg_left (by linarith) (inv_nonneg.mpr h2.le)
  have k2 : (|e 0| + |e 1| + U / (1 - ‖p2‖)) / (1 - ‖p1‖) ≤
      ((1 + 1 / (1 - ‖p2‖)) * (|e 0| + |e 1| + U)) / (1 - ‖p1‖) := by
    apply div_le_div_of_nonneg_right _ h1.le
    linarith
  have k3 : (1 + (1 + 1 / (1 - ‖p2‖)) / (1 - ‖p1‖)) * (|e 0| + |e 1| + U) =
      (|e 0| + |e 1| + U) + ((1 + 1 / (1 - ‖p2‖)) * (|e 0| + |e 1| + U)) / (1 - ‖p1‖) := by
    ring
  rw [k3]
  linarith

/-- In the long run the recurrence forgets its start: it is in proportion to what drives it. -/
theorem settles (a1 a2 : ℝ) (h : Inside a1 a2) : ∃ C, 0 ≤ C ∧ ∀ (e d : ℕ → ℝ) (U : ℝ) (N : ℕ),
    (∀ n ≥ N, e (n + 2) = -a1 * e (n + 1) - a2 * e n + d n) → (∀ n ≥ N, |d n| ≤ U) →
    ∀ η > 0, ∃ N', ∀ n ≥ N', |e n| ≤ C * U + η := by
  obtain ⟨p1, p2, e1, e2, n1, n2⟩ := roots a1 a2 h
  have h1 : 0 < 1 - ‖p1‖ := by linarith
  have h2 : 0 < 1 - ‖p2‖ := by linarith
  refine ⟨1 / (1 - ‖p2‖) / (1 - ‖p1‖), by positivity, fun e d U N he hd η hη => ?_⟩
  have hw : ∀ n ≥ N, ((e (n + 2) : ℂ) - p1 * e (n + 1)) = p2 * ((e (n + 1) : ℂ) - p1 * e n) + d n := by
    intro n hn
    rw [he n hn]
    push_cast
    linear_combination (-(e (n + 1) : ℂ)) * e1 + (e n : ℂ) * e2
  have s0 : Settles (fun n => (d n : ℂ)) U := by
    intro η hη
    refine ⟨N, fun n hn => ?_⟩
    have := hd n hn
    rw [Complex.norm_real, Real.norm_eq_abs]
    linarith
  have s1 := first_settles p2 n2 (fun n => (e (n + 1) : ℂ) - p1 * e n) _ N hw U s0
  have s2 := first_settles p1 n1 (fun n => (e n : ℂ)) _ 0 (fun n _ => by ring) _ s1
  obtain ⟨N', hN'⟩ := s2 η hη
  refine ⟨N', fun n hn => ?_⟩
  have := hN' n hn
  rw [Complex.norm_real, Real.norm_eq_abs] at this
  calc |e n| ≤ U / (1 - ‖p2‖) / (1 - ‖p1‖) + η := this
    _ = 1 / (1 - ‖p2‖) / (1 - ‖p1‖) * U + η := by ring

end SecondOrder
end Rawdio
