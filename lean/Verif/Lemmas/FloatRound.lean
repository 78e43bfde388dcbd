import Verif.Lemmas.Files

/-! Helper lemmas about the rounding of `f64`: numbers that are not rounded, and order. -/

namespace Rawdio
namespace Float64

open Float32 (grid grid_error le_grid grid_le round64_zero)

/-- The number is an `f64`. -/
def Rep (y : ℚ) : Prop := ∃ m e : ℤ, y = m * 2 ^ e ∧ |m| < 2 ^ 53 ∧ -1074 ≤ e

theorem round_grid (x : ℚ) : round x = grid (ulp x) x := rfl

/-- The exponent of the unit. -/
def unitLog (x : ℚ) : ℤ := max (Int.log 2 |x| - 52) (-1074)

theorem ulp_eq (x : ℚ) : ulp x = 2 ^ unitLog x := rfl

theorem unitLog_le {x : ℚ} (h0 : x ≠ 0) {e : ℤ} (he : -1074 ≤ e) (h : |x| < 2 ^ (e + 53)) : unitLog x ≤ e := by
  have hp : 0 < |x| := abs_pos.mpr h0
  have hl := (Int.lt_zpow_iff_log_lt (b := 2) (by norm_num) hp (x := e + 53)).mp (by exact_mod_cast h)
  unfold unitLog
  omega

theorem le_of_lt_unitLog {x : ℚ} (h0 : x ≠ 0) {e : ℤ} (he : -1074 ≤ e) (h : e < unitLog x) : (2 : ℚ) ^ (unitLog x + 52) ≤ |x| := by
  have hp : 0 < |x| := abs_pos.mpr h0
  have : unitLog x + 52 = Int.log 2 |x| := by
    unfold unitLog at h ⊢
    omega
  rw [this]
  exact_mod_cast Int.zpow_log_le_self (b := 2) (by norm_num) hp

theorem zpow_cut {k e : ℤ} (h : k ≤ e) : (2 : ℚ) ^ e = ((2 ^ (e - k).toNat : ℤ) : ℚ) * 2 ^ k := by
  push_cast
  rw [← zpow_natCast, Int.toNat_of_nonneg (by omega), ← zpow_add₀ (by norm_num)]
  congr 1
  ring

theorem rep_abs {m e : ℤ} (hm : |m| < 2 ^ 53) : |(m : ℚ) * 2 ^ e| < 2 ^ (e + 53) := by
  rw [abs_mul, abs_of_pos (zpow_pos (by norm_num : (0 : ℚ) < 2) e), zpow_add₀ (by norm_num), mul_comm]
  refine mul_lt_mul_of_pos_left ?_ (zpow_pos (by norm_num) _)
  have : ((|m| : ℤ) : ℚ) < ((2 ^ 53 : ℤ) : ℚ) := Int.cast_lt.mpr hm
  rw [Int.cast_abs] at this
  norm_num at this ⊢
  exact this

/-- A number that is not negative is not rounded past an `f64` above it. -/
theorem round_le {x y : ℚ} (h0 : 0 ≤ x) (hy : Rep y) (h : x ≤ y) : round x ≤ y := by
  obtain ⟨m, e, rfl, hm, he⟩ := hy
  rcases h0.eq_or_lt with rfl | h0
  · rwa [round64_zero]
  have hx : |x| < 2 ^ (e + 53) := by
    rw [abs_of_pos h0]
    exact lt_of_le_of_lt (h.trans (le_abs_self _)) (rep_abs hm)
  have hk := unitLog_le h0.ne' he hx
  have := zpow_cut hk
  rw [this, ← mul_assoc, ← Int.cast_mul] at h ⊢
  rw [round_grid, ulp_eq]
  exact grid_le (zpow_pos (by norm_num) _) _ h

/-- Nor past an `f64` below it. -/
theorem le_round {x y : ℚ} (h0 : 0 ≤ y) (hy : Rep y) (h : y ≤ x) : y ≤ round x := by
  obtain ⟨m, e, rfl, hm, he⟩ := hy
  rcases eq_or_ne x 0 with rfl | hx0
  · rw [round64_zero]
    exact h
  rw [round_grid, ulp_eq]
  rcases le_or_gt (unitLog x) e with hk | hk
  · have := zpow_cut hk
    rw [this, ← mul_assoc, ← Int.cast_mul] at h ⊢
    exact le_grid (zpow_pos (by norm_num) _) _ h
  · have h1 := le_of_lt_unitLog hx0 he hk
    rw [abs_of_nonneg (h0.trans h), zpow_add₀ (by norm_num)] at h1
    have h2 := le_grid (u := 2 ^ unitLog x) (y := x) (zpow_pos (by norm_num) _) (2 ^ 52) (by
      push_cast
      rw [mul_comm]
      exact_mod_cast h1)
    refine le_trans ?_ h2
    have h3 := (le_abs_self _).trans (rep_abs (e := e) hm).le
    refine h3.trans ?_
    have : (2 : ℚ) ^ (e + 53) ≤ 2 ^ (unitLog x + 52) := zpow_le_zpow_right₀ (by norm_num) (by omega)
    rw [zpow_add₀ (by norm_num) (unitLog x)] at this
    refine this.trans (le_of_eq ?_)
    rw [mul_comm]
    norm_num

/-- An `f64` is not rounded. -/
theorem round_rep {x : ℚ} (h0 : 0 ≤ x) (h : Rep x) : round x = x :=
  le_antisymm (round_le h0 h le_rfl) (le_round h0 h le_rfl)

theorem rep_int (m : ℤ) (h : |m| < 2 ^ 53) : Rep m := ⟨m, 0, by simp, h, by norm_num⟩

theorem rep_zpow (e : ℤ) (he : -1074 ≤ e) : Rep (2 ^ e) := ⟨1, e, by simp, by norm_num, he⟩

theorem rep_div (m n : ℕ) (hm : m < 2 ^ 53) (hn : n ≤ 1074) : Rep (m / 2 ^ n) :=
  ⟨m, -n, by rw [zpow_neg, zpow_natCast, div_eq_mul_inv]; norm_cast, by rw [abs_of_nonneg (by positivity)]; exact_mod_cast hm,
    by omega⟩

/-- The result of a rounding is an `f64`. -/
theorem rep_round {x : ℚ} (h0 : 0 ≤ x) : Rep (round x) := by
  rcases h0.eq_or_lt with rfl | h0
  · rw [round64_zero]
    exact ⟨0, 0, by simp, by norm_num, by norm_num⟩
  have hu : (0 : ℚ) < 2 ^ unitLog x := zpow_pos (by norm_num) _
  have hk : -1074 ≤ unitLog x := le_max_right _ _
  have hlt : x < 2 ^ (unitLog x + 53) := by
    have h1 := Int.lt_zpow_succ_log_self (b := 2) (by norm_num) |x|
    rw [abs_of_pos h0] at h1
    have h2 : (2 : ℚ) ^ (Int.log 2 x + 1) ≤ 2 ^ (unitLog x + 53) := zpow_le_zpow_right₀ (by norm_num) (by
      have : Int.log 2 |x| - 52 ≤ unitLog x := le_max_left _ _
      rw [abs_of_pos h0] at this
      omega)
    exact lt_of_lt_of_le (by exact_mod_cast h1) h2
  have hle : round x ≤ 2 ^ (unitLog x + 53) := round_le h0.le (rep_zpow _ (by omega)) hlt.le
  have hnn : 0 ≤ round x := le_round le_rfl ⟨0, 0, by simp, by norm_num, by norm_num⟩ h0.le
  rcases hle.eq_or_lt with h | h
  · rw [h]
    exact rep_zpow _ (by omega)
  refine ⟨Timestamp.roundHalfEven (x / ulp x), unitLog x, rfl, ?_, hk⟩
  have e : round x = (Timestamp.roundHalfEven (x / ulp x) : ℚ) * 2 ^ unitLog x := rfl
  rw [e] at h hnn
  generalize Timestamp.roundHalfEven (x / ulp x) = j at h hnn
  rw [zpow_add₀ (by norm_num), mul_comm ((2 : ℚ) ^ unitLog x)] at h
  have h1 := lt_of_mul_lt_mul_right h hu.le
  have h2 : (0 : ℚ) ≤ j := nonneg_of_mul_nonneg_left hnn hu
  have h3 : (0 : ℤ) ≤ j := by exact_mod_cast h2
  rw [abs_of_nonneg h3]
  have : (j : ℚ) < ((2 ^ 53 : ℤ) : ℚ) := by
    norm_num at h1 ⊢
    exact h1
  exact Int.cast_lt.mp this

theorem round_nonneg {x : ℚ} (h0 : 0 ≤ x) : 0 ≤ round x :=
  le_round le_rfl ⟨0, 0, by simp, by norm_num, by norm_num⟩ h0

/-- The error of a rounding. -/
theorem round_error_lt {x : ℚ} {e : ℤ} (he : -1022 ≤ e) (h : |x| < 2 ^ (e + 1)) : |round x - x| ≤ 2 ^ (e - 53) := by
  rcases eq_or_ne x 0 with rfl | h0
  · rw [round64_zero, sub_zero, abs_zero]
    exact (zpow_pos (by norm_num) _).le
  have hk := unitLog_le (e := e - 52) h0 (by omega) (by rwa [show e - 52 + 53 = e + 1 by ring])
  have hu : ulp x ≤ 2 ^ (e - 52) := zpow_le_zpow_right₀ (by norm_num) hk
  have := grid_error (ulp_pos x) x
  rw [← round_grid] at this
  have e1 : (2 : ℚ) ^ (e - 53) = 2 ^ (e - 52) / 2 := by
    rw [show e - 52 = e - 53 + 1 by ring, zpow_add₀ (by norm_num)]
    norm_num
  rw [e1]
  linarith

/-- Below 1 there is a gap. -/
theorem rep_gap {x : ℚ} (h0 : 0 ≤ x) (hr : Rep x) (h : x < 1) : x ≤ 1 - 1 / 2 ^ 53 := by
  rcases le_or_gt x (1 / 2) with h2 | h2
  · refine h2.trans ?_
    norm_num
  obtain ⟨m, e, rfl, hm, he⟩ := hr
  -- the multiples of `2 ^ e` with `e ≥ -53`, or of a larger unit
  rcases le_or_gt (-53) e with h3 | h3
  · have := zpow_cut h3
    rw [this, ← mul_assoc, ← Int.cast_mul] at h ⊢
    generalize m * 2 ^ (e - -53).toNat = j at h
    have e1 : (2 : ℚ) ^ (-53 : ℤ) = 1 / 2 ^ 53 := by norm_num
    rw [e1] at h ⊢
    have : (j : ℚ) < ((2 ^ 53 : ℤ) : ℚ) := by
      push_cast
      linarith
    have h4 : j < 2 ^ 53 := by exact_mod_cast this
    have h5 : j ≤ 2 ^ 53 - 1 := by omega
    have h6 : (j : ℚ) ≤ ((2 ^ 53 - 1 : ℤ) : ℚ) := by exact_mod_cast h5
    push_cast at h6
    linarith
  · exfalso
    have h4 := (le_abs_self _).trans_lt (rep_abs (e := e) hm)
    have h5 : (2 : ℚ) ^ (e + 53) ≤ 2 ^ (-1 : ℤ) := zpow_le_zpow_right₀ (by norm_num) (by omega)
    norm_num at h5 h2
    linarith

/-- A number below 1 times a whole number is not rounded up to that whole number. -/
theorem round_mul_lt {p : ℚ} (h0 : 0 ≤ p) (hp : p ≤ 1 - 1 / 2 ^ 53) (L : ℕ) (hL : 0 < L) (hL' : L < 2 ^ 52) :
    round (p * L) < L := by
  have hL0 : (0 : ℚ) < L := by exact_mod_cast hL
  obtain ⟨e, he⟩ : ∃ e, e = Nat.log 2 L := ⟨_, rfl⟩
  have l1 : 2 ^ e ≤ L := by rw [he]; exact Nat.pow_log_le_self 2 hL.ne'
  have l2 : L < 2 ^ (e + 1) := by rw [he]; exact Nat.lt_pow_succ_log_self (by norm_num) L
  have he52 : e < 52 := by
    by_contra hc
    have : 2 ^ 52 ≤ 2 ^ e := Nat.pow_le_pow_right (by norm_num) (by omega)
    omega
  have hpos : 0 ≤ p * L := mul_nonneg h0 hL0.le
  have hle : p * L ≤ L - L / 2 ^ 53 := by
    have := mul_le_mul_of_nonneg_right hp hL0.le
    linarith
  rcases l1.eq_or_lt with hl | hl
  · -- a power of two
    have h1 : round (p * L) ≤ ((2 ^ 53 - 1 : ℕ) : ℚ) / 2 ^ (53 - e) := by
      refine round_le hpos (rep_div _ _ (by norm_num) (by omega)) (hle.trans (le_of_eq ?_))
      have : (2 : ℚ) ^ 53 = 2 ^ (53 - e) * 2 ^ e := by rw [← pow_add]; congr 1; omega
      rw [← hl, eq_div_iff (by positivity), sub_mul, div_mul_eq_mul_div]
      push_cast
      rw [mul_comm ((2 : ℚ) ^ e), ← this, div_self (by norm_num)]
      norm_num
    refine h1.trans_lt ?_
    have : (2 : ℚ) ^ 53 = 2 ^ (53 - e) * 2 ^ e := by rw [← pow_add]; congr 1; omega
    rw [div_lt_iff₀ (by positivity), ← hl]
    push_cast
    rw [mul_comm ((2 : ℚ) ^ e), ← this]
    norm_num
  · -- the distance to the whole number is more than half a unit
    have hl' : ((2 : ℚ) ^ e) + 1 ≤ L := by exact_mod_cast hl
    rcases lt_or_ge (p * L) (2 ^ e) with h2 | h2
    · have : round (p * L) ≤ 2 ^ e := by
        have := round_le hpos (rep_zpow e (by omega)) (by rw [zpow_natCast]; exact h2.le)
        rwa [zpow_natCast] at this
      linarith
    · have hlt : |p * L| < 2 ^ ((e : ℤ) + 1) := by
        rw [abs_of_nonneg hpos]
        have : (L : ℚ) < 2 ^ (e + 1) := by exact_mod_cast l2
        have h3 : (0 : ℚ) < L / 2 ^ 53 := by positivity
        have h4 : (2 : ℚ) ^ ((e : ℤ) + 1) = 2 ^ (e + 1) := by norm_cast
        rw [h4]
        linarith
      have herr := round_error_lt (e := e) (by omega) hlt
      have h5 : (2 : ℚ) ^ ((e : ℤ) - 53) = 2 ^ e / 2 ^ 53 := by
        rw [zpow_sub₀ (by norm_num), zpow_natCast]
        norm_cast
      rw [h5] at herr
      have h6 := (abs_le.mp herr).2
      have h7 : (2 : ℚ) ^ e / 2 ^ 53 < L / 2 ^ 53 := by
        apply div_lt_div_of_pos_right _ (by positivity)
        linarith
      linarith

end Float64
end Rawdio
