import Verif.Lemmas.FollowerFloat2
import Verif.Spec.AdsrFloat

/-! Helper lemmas about ADSR envelopes in the arithmetic of `f64`. -/

namespace Rawdio
namespace Adsr64

open Float64 (Rep)

/-- The number of samples of a time. -/
theorem samples_near {sr t : Nat} (hsr : 0 < sr) (ht : 0 < t) :
    0 < timeSamples sr t ∧
    |Float64.round (Follower32.secs t * sr) - timeSamples sr t| ≤ timeSamples sr t * (1 / 2 ^ 49) := by
  have hs := Follower32.secs_near ht
  have hsr1 : (1 : ℚ) ≤ sr := by exact_mod_cast hsr
  have ht1 : (1 : ℚ) ≤ t := by exact_mod_cast ht
  have hn0 : (1 : ℚ) / 10 ^ 9 ≤ timeSamples sr t := by
    unfold timeSamples
    apply div_le_div_of_nonneg_right _ (by norm_num)
    nlinarith
  have hmul : |Follower32.secs t * sr - timeSamples sr t| ≤ |timeSamples sr t| * (1 / 2 ^ 50) := by
    have e : Follower32.secs t * sr - timeSamples sr t = sr * (Follower32.secs t - t / 10 ^ 9) := by unfold timeSamples; ring
    have e2 : |timeSamples sr t| * (1 / 2 ^ 50) = sr * (t / 10 ^ 9 * (1 / 2 ^ 50)) := by
      rw [abs_of_nonneg (le_trans (by norm_num) hn0)]
      unfold timeSamples
      ring
    rw [e, e2, abs_mul, abs_of_nonneg (show (0 : ℚ) ≤ sr by linarith)]
    exact mul_le_mul_of_nonneg_left hs (by linarith)
  generalize timeSamples sr t = n at *
  generalize Follower32.secs t * (sr : ℚ) = m at *
  have hnp : 0 < n := lt_of_lt_of_le (by norm_num) hn0
  refine ⟨hnp, ?_⟩
  rw [abs_of_pos hnp] at hmul
  have small : (1 : ℚ) / 2 ^ 900 ≤ 1 / 2 ^ 32 := one_div_le_one_div_of_le (by positivity) (pow_le_pow_right₀ (by norm_num) (by norm_num))
  have hm : n * (1 / 2) ≤ m := by
    have := (abs_le.mp hmul).1
    linarith
  have e3 : |Float64.round m - m| ≤ |m| * (1 / 2 ^ 52) := by
    apply Float64.round_near
    right
    rw [abs_of_nonneg (by linarith)]
    refine small.trans (le_trans ?_ hm)
    have : (1 : ℚ) / 2 ^ 32 ≤ 1 / 10 ^ 9 * (1 / 2) := by norm_num
    linarith
  have e4 := Follower32.near_mul (by rwa [abs_of_pos hnp]) e3 (by positivity)
  rw [abs_of_pos hnp] at e4
  exact e4.trans (mul_le_mul_of_nonneg_left (by norm_num) hnp.le)

/-- The coefficient of a stage whose distance shrinks by `exp (-L)` in `n` samples. -/
theorem coefficient_log {ln exp : ℚ → ℚ} (hacc : Accurate ln exp) {sr t : Nat} (hsr : 0 < sr) (ht : 0 < t) {q : ℚ} (hq : 0 < q)
    {L : ℝ} (hL0 : 0 ≤ L) (hL : L ≤ 5 / 2) (hqL : |Real.log q + L| ≤ 1 / 2 ^ 49) (hn : 1 ≤ timeSamples sr t) :
    0 < (coefficient ln exp q t sr : ℝ) ∧
    |Real.log (coefficient ln exp q t sr) + L / timeSamples sr t| ≤ 1 / 2 ^ 45 / timeSamples sr t + 1 / 2 ^ 48 := by
  obtain ⟨-, hm⟩ := samples_near hsr ht
  unfold coefficient
  rw [if_neg (by omega)]
  generalize timeSamples sr t = nq at *
  generalize Float64.round (Follower32.secs t * sr) = mq at *
  have hmR : |(mq : ℝ) - nq| ≤ nq * (1 / 2 ^ 49) := by
    have := Rat.cast_le (K := ℝ) |>.mpr hm
    push_cast at this
    exact this
  have hnR : (1 : ℝ) ≤ nq := by exact_mod_cast hn
  have hl := hacc.ln q hq
  obtain ⟨l, hl'⟩ : ∃ l, l = ln q := ⟨_, rfl⟩
  rw [← hl'] at hl ⊢
  have hr := Float64.round_relR (l / mq)
  generalize Float64.round (l / mq) = x at *
  push_cast at hr
  generalize (nq : ℝ) = n at *
  have hm1 : n * (1 - 1 / 2 ^ 49) ≤ mq ∧ (mq : ℝ) ≤ n * (1 + 1 / 2 ^ 49) := by
    have := abs_le.mp hmR
    constructor <;> linarith
  generalize (mq : ℝ) = m at *
  have hn0 : 0 < n := by linarith
  have hm0 : 0 < m := lt_of_lt_of_le (mul_pos hn0 (by norm_num)) hm1.1
  have small : (1 : ℝ) / 2 ^ 1075 ≤ 1 / 2 ^ 52 := one_div_le_one_div_of_le (by positivity) (pow_le_pow_right₀ (by norm_num) (by norm_num))
  generalize (1 : ℝ) / 2 ^ 1075 = τ at *
  obtain ⟨v, hv⟩ : ∃ v : ℝ, v = 1 / 2 ^ 53 := ⟨_, rfl⟩
  have hv0 : 0 < v := by rw [hv]; positivity
  have hv1 : v ≤ 1 / 2 ^ 20 := by rw [hv]; norm_num
  have p49 : (1 : ℝ) / 2 ^ 49 = 16 * v := by rw [hv]; norm_num
  have p48 : (1 : ℝ) / 2 ^ 48 = 32 * v := by rw [hv]; norm_num
  have p50 : (1 : ℝ) / 2 ^ 50 = 8 * v := by rw [hv]; norm_num
  have p45 : (1 : ℝ) / 2 ^ 45 = 256 * v := by rw [hv]; norm_num
  have p52 : (1 : ℝ) / 2 ^ 52 = 2 * v := by rw [hv]; norm_num
  rw [p49] at hqL hm1 hmR
  rw [p50] at hl
  rw [p52] at small
  rw [← hv] at hr
  rw [p48, p45]
  clear p49 p45 p52
  -- the logarithm
  have hlL : |(l : ℝ) + L| ≤ 40 * v := by
    have h1 := abs_le.mp hqL
    have h2 : |Real.log q| ≤ 13 / 5 := by
      rw [abs_le]
      constructor <;> linarith
    have h3 : |Real.log q| * (8 * v) ≤ 13 / 5 * (8 * v) := mul_le_mul_of_nonneg_right h2 (by linarith)
    have h4 := abs_le.mp (hl.trans h3)
    rw [abs_le]
    constructor <;> linarith
  have hlb : |(l : ℝ)| ≤ 13 / 5 := by
    have := abs_le.mp hlL
    rw [abs_le]
    constructor <;> linarith
  -- the quotient
  have hq1 : |(l : ℝ) / m + L / n| ≤ 100 * v / n := by
    have e : (l : ℝ) / m + L / n = ((l + L) * n + L * (m - n)) / (m * n) := by field_simp; ring
    rw [e, abs_div, abs_of_pos (mul_pos hm0 hn0), div_le_div_iff₀ (mul_pos hm0 hn0) hn0]
    have b1 : |(l + L) * n + L * (m - n)| ≤ 40 * v * n + 5 / 2 * (n * (16 * v)) := by
      refine (abs_add_le _ _).trans (add_le_add ?_ ?_)
      · rw [abs_mul, abs_of_pos hn0]
        exact mul_le_mul_of_nonneg_right hlL hn0.le
      · rw [abs_mul, abs_of_nonneg hL0]
        exact mul_le_mul hL hmR (abs_nonneg _) (by norm_num)
    have b2 : (40 * v * n + 5 / 2 * (n * (16 * v))) ≤ 100 * v * m := by
      have := mul_le_mul_of_nonneg_left hm1.1 (show 0 ≤ 100 * v by positivity)
      have h3 : v * (n * v) ≤ v * n * (1 / 2 ^ 20) := by
        rw [← mul_assoc]
        exact mul_le_mul_of_nonneg_left hv1 (by positivity)
      have h4 : 0 < v * n := by positivity
      nlinarith
    calc |(l + L) * n + L * (m - n)| * n ≤ 100 * v * m * n := mul_le_mul_of_nonneg_right (b1.trans b2) hn0.le
      _ = 100 * v * (m * n) := by ring
  have hlm : |(l : ℝ) / m| ≤ 3 / n := by
    rw [abs_div, abs_of_pos hm0, div_le_div_iff₀ hm0 hn0]
    have h1 := mul_le_mul_of_nonneg_right hlb hn0.le
    have h2 : n * (16 * v) ≤ n * (1 / 16) := mul_le_mul_of_nonneg_left (by linarith) hn0.le
    nlinarith [hm1.1]
  have hx : |(x : ℝ) + L / n| ≤ 103 * v / n + 2 * v := by
    have h1 : |(l : ℝ) / m| * v ≤ 3 / n * v := mul_le_mul_of_nonneg_right hlm hv0.le
    have h2 := abs_le.mp hr
    have h3 := abs_le.mp hq1
    have e : 103 * v / n = 100 * v / n + 3 / n * v := by ring
    rw [e, abs_le]
    constructor <;> linarith
  have hx700 : |x| ≤ 700 := by
    have h1 : L / n ≤ 5 / 2 := (div_le_self hL0 hnR).trans hL
    have h2 : 0 ≤ L / n := by positivity
    have h3 : 103 * v / n ≤ 103 * v := div_le_self (by positivity) hnR
    have h4 := abs_le.mp hx
    have : |(x : ℝ)| ≤ 700 := by
      rw [abs_le]
      constructor <;> linarith
    exact_mod_cast this
  have he := hacc.exp x hx700
  rw [p50] at he
  obtain ⟨hc, hlog⟩ := log_rel (Real.exp_pos _) (by linarith) he
  rw [Real.log_exp] at hlog
  refine ⟨hc, ?_⟩
  have h2 := abs_le.mp hlog
  have h3 := abs_le.mp hx
  have e : 256 * v / n = 103 * v / n + 153 * (v / n) := by ring
  have hvn : 0 ≤ v / n := by positivity
  rw [e, abs_le]
  constructor <;> linarith

end Adsr64
end Rawdio
