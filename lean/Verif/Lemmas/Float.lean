import Verif.Lemmas.Timestamp
import Verif.Model.Float

/-! Helper lemmas about the rounding of `f64`. -/

namespace Rawdio
namespace Float64

theorem ulp_pos (x : ℚ) : 0 < ulp x := zpow_pos (by norm_num) _

/-- The unit is at most 2^-52 of the number, or the smallest one. -/
theorem ulp_le {x : ℚ} (h0 : x ≠ 0) : ulp x ≤ |x| / 2 ^ 52 + 1 / 2 ^ 1074 := by
  unfold ulp
  rcases max_choice (Int.log 2 |x| - 52) (-1074) with h | h
  · rw [h]
    have hp : 0 < |x| := abs_pos.mpr h0
    have hl := Int.zpow_log_le_self (b := 2) (by norm_num) hp
    rw [zpow_sub₀ (by norm_num)]
    have e : (2 : ℚ) ^ (52 : ℤ) = 2 ^ 52 := by norm_cast
    rw [e]
    have : (2 : ℚ) ^ Int.log 2 |x| / 2 ^ 52 ≤ |x| / 2 ^ 52 :=
      div_le_div_of_nonneg_right (by exact_mod_cast hl) (by positivity)
    have h2 : (0 : ℚ) ≤ 1 / 2 ^ 1074 := by positivity
    linarith
  · rw [h]
    have e : (2 : ℚ) ^ (-1074 : ℤ) = 1 / 2 ^ 1074 := by
      rw [zpow_neg, one_div]
      norm_cast
    rw [e]
    have h2 : (0 : ℚ) ≤ |x| / 2 ^ 52 := by positivity
    linarith

/-- Rounding to `f64` has a relative error of at most 2^-53. -/
theorem round_error (x : ℚ) : |round x - x| ≤ |x| / 2 ^ 53 + 1 / 2 ^ 60 := by
  rcases eq_or_ne x 0 with h0 | h0
  · have : round x = x := by
      subst h0
      have := Timestamp.roundHalfEven_int 0
      simp only [Int.cast_zero] at this
      simp [round, this]
    rw [this, sub_self, abs_zero]
    positivity
  have hu := ulp_pos x
  have h := Timestamp.roundHalfEven_error (x / ulp x)
  have e : round x - x = ((Timestamp.roundHalfEven (x / ulp x) : ℚ) - x / ulp x) * ulp x := by
    unfold round
    field_simp
  rw [e, abs_mul, abs_of_pos hu]
  have h1 := mul_le_mul_of_nonneg_right h hu.le
  have h2 := ulp_le h0
  have h3 : (1 : ℚ) / 2 ^ 1074 ≤ 1 / 2 ^ 60 :=
    one_div_le_one_div_of_le (by positivity) (pow_le_pow_right₀ (by norm_num) (by norm_num))
  generalize (1 : ℚ) / 2 ^ 1074 = s at h2 h3
  have h4 : |x| / 2 ^ 53 = 1 / 2 * (|x| / 2 ^ 52) := by ring
  rw [h4]
  have : (0 : ℚ) < 1 / 2 ^ 60 := by positivity
  linarith

theorem round_error_of_le {x b : ℚ} (h : |x| ≤ b) : |round x - x| ≤ b / 2 ^ 53 + 1 / 2 ^ 60 := by
  have := round_error x
  have h2 : |x| / 2 ^ 53 ≤ b / 2 ^ 53 := div_le_div_of_nonneg_right h (by positivity)
  linarith

end Float64

namespace Timestamp

theorem fromSamplesFloat_error (x : ℚ) (hx : |x| ≤ 2 ^ 31) :
    |(roundHalfEven (Float64.round x * one) : ℚ) / one - x| ≤ 1 / 2 ^ 22 + 1 / 2 ^ 60 + 1 / 2 ^ 33 := by
  have h1 := Float64.round_error_of_le hx
  have h2 := roundHalfEven_error (Float64.round x * one)
  have e : (roundHalfEven (Float64.round x * one) : ℚ) / one - x =
      ((roundHalfEven (Float64.round x * one) : ℚ) - Float64.round x * one) / one + (Float64.round x - x) := by
    have : one ≠ 0 := one_pos.ne'
    field_simp
    ring
  rw [e]
  refine (abs_add_le _ _).trans ?_
  rw [abs_div, abs_of_pos one_pos]
  have h3 : |(roundHalfEven (Float64.round x * one) : ℚ) - Float64.round x * one| / one ≤ 1 / 2 ^ 33 := by
    rw [div_le_iff₀ one_pos]
    refine h2.trans (le_of_eq ?_)
    norm_num [one]
  have h4 : (2 : ℚ) ^ 31 / 2 ^ 53 = 1 / 2 ^ 22 := by norm_num
  rw [h4] at h1
  linarith

end Timestamp
end Rawdio
