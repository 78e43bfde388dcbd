import Verif.Lemmas.ParameterFloat2
import Verif.Spec.FollowerFloat

/-! Helper lemmas about the rounding of `f32`, and about envelope followers in its arithmetic. -/

namespace Rawdio
namespace Float32

/-- The number is an `f32`. -/
def Rep (y : ℚ) : Prop := ∃ m e : ℤ, y = m * 2 ^ e ∧ |m| < 2 ^ 24 ∧ -149 ≤ e

theorem ulp_pos (x : ℚ) : 0 < ulp x := zpow_pos (by norm_num) _

theorem round_grid (x : ℚ) : round x = grid (ulp x) x := rfl

/-- The exponent of the unit. -/
def unitLog (x : ℚ) : ℤ := max (Int.log 2 |x| - 23) (-149)

theorem ulp_eq (x : ℚ) : ulp x = 2 ^ unitLog x := rfl

theorem unitLog_le {x : ℚ} (h0 : x ≠ 0) {e : ℤ} (he : -149 ≤ e) (h : |x| < 2 ^ (e + 24)) : unitLog x ≤ e := by
  have hp : 0 < |x| := abs_pos.mpr h0
  have hl := (Int.lt_zpow_iff_log_lt (b := 2) (by norm_num) hp (x := e + 24)).mp (by exact_mod_cast h)
  unfold unitLog
  omega

theorem le_of_lt_unitLog {x : ℚ} (h0 : x ≠ 0) {e : ℤ} (he : -149 ≤ e) (h : e < unitLog x) : (2 : ℚ) ^ (unitLog x + 23) ≤ |x| := by
  have hp : 0 < |x| := abs_pos.mpr h0
  have : unitLog x + 23 = Int.log 2 |x| := by
    unfold unitLog at h ⊢
    omega
  rw [this]
  exact_mod_cast Int.zpow_log_le_self (b := 2) (by norm_num) hp

theorem zpow_cut {k e : ℤ} (h : k ≤ e) : (2 : ℚ) ^ e = ((2 ^ (e - k).toNat : ℤ) : ℚ) * 2 ^ k := by
  push_cast
  rw [← zpow_natCast, Int.toNat_of_nonneg (by omega), ← zpow_add₀ (by norm_num)]
  congr 1
  ring

theorem rep_abs {m e : ℤ} (hm : |m| < 2 ^ 24) : |(m : ℚ) * 2 ^ e| < 2 ^ (e + 24) := by
  rw [abs_mul, abs_of_pos (zpow_pos (by norm_num : (0 : ℚ) < 2) e), zpow_add₀ (by norm_num), mul_comm]
  refine mul_lt_mul_of_pos_left ?_ (zpow_pos (by norm_num) _)
  have : ((|m| : ℤ) : ℚ) < ((2 ^ 24 : ℤ) : ℚ) := Int.cast_lt.mpr hm
  rw [Int.cast_abs] at this
  norm_num at this ⊢
  exact this

/-- A number that is not negative is not rounded past an `f32` above it. -/
theorem round_le {x y : ℚ} (h0 : 0 ≤ x) (hy : Rep y) (h : x ≤ y) : round x ≤ y := by
  obtain ⟨m, e, rfl, hm, he⟩ := hy
  rcases h0.eq_or_lt with rfl | h0
  · rwa [round_zero]
  have hx : |x| < 2 ^ (e + 24) := by
    rw [abs_of_pos h0]
    exact lt_of_le_of_lt (h.trans (le_abs_self _)) (rep_abs hm)
  have hk := unitLog_le h0.ne' he hx
  have := zpow_cut hk
  rw [this, ← mul_assoc, ← Int.cast_mul] at h ⊢
  rw [round_grid, ulp_eq]
  exact grid_le (zpow_pos (by norm_num) _) _ h

/-- Nor past an `f32` below it. -/
theorem le_round {x y : ℚ} (h0 : 0 ≤ y) (hy : Rep y) (h : y ≤ x) : y ≤ round x := by
  obtain ⟨m, e, rfl, hm, he⟩ := hy
  rcases eq_or_ne x 0 with rfl | hx0
  · rw [round_zero]
    exact h
  rw [round_grid, ulp_eq]
  rcases le_or_gt (unitLog x) e with hk | hk
  · have := zpow_cut hk
    rw [this, ← mul_assoc, ← Int.cast_mul] at h ⊢
    exact le_grid (zpow_pos (by norm_num) _) _ h
  · have h1 := le_of_lt_unitLog hx0 he hk
    rw [abs_of_nonneg (h0.trans h), zpow_add₀ (by norm_num)] at h1
    have h2 := le_grid (u := 2 ^ unitLog x) (y := x) (zpow_pos (by norm_num) _) (2 ^ 23) (by
      push_cast
      rw [mul_comm]
      exact_mod_cast h1)
    refine le_trans ?_ h2
    have h3 := (le_abs_self _).trans (rep_abs (e := e) hm).le
    refine h3.trans ?_
    have : (2 : ℚ) ^ (e + 24) ≤ 2 ^ (unitLog x + 23) := zpow_le_zpow_right₀ (by norm_num) (by omega)
    rw [zpow_add₀ (by norm_num) (unitLog x)] at this
    refine this.trans (le_of_eq ?_)
    rw [mul_comm]
    norm_num

/-- An `f32` is not rounded. -/
theorem round_rep {x : ℚ} (h0 : 0 ≤ x) (h : Rep x) : round x = x :=
  le_antisymm (round_le h0 h le_rfl) (le_round h0 h le_rfl)

theorem rep_int (m : ℤ) (h : |m| < 2 ^ 24) : Rep m := ⟨m, 0, by simp, h, by norm_num⟩

theorem rep_zpow (e : ℤ) (he : -149 ≤ e) : Rep (2 ^ e) := ⟨1, e, by simp, by norm_num, he⟩

theorem rep_div (m n : ℕ) (hm : m < 2 ^ 24) (hn : n ≤ 149) : Rep (m / 2 ^ n) :=
  ⟨m, -n, by rw [zpow_neg, zpow_natCast, div_eq_mul_inv]; norm_cast, by rw [abs_of_nonneg (by positivity)]; exact_mod_cast hm,
    by omega⟩

/-- The result of a rounding is an `f32`. -/
theorem rep_round {x : ℚ} (h0 : 0 ≤ x) : Rep (round x) := by
  rcases h0.eq_or_lt with rfl | h0
  · rw [round_zero]
    exact ⟨0, 0, by simp, by norm_num, by norm_num⟩
  have hu : (0 : ℚ) < 2 ^ unitLog x := zpow_pos (by norm_num) _
  have hk : -149 ≤ unitLog x := le_max_right _ _
  have hlt : x < 2 ^ (unitLog x + 24) := by
    have h1 := Int.lt_zpow_succ_log_self (b := 2) (by norm_num) |x|
    rw [abs_of_pos h0] at h1
    have h2 : (2 : ℚ) ^ (Int.log 2 x + 1) ≤ 2 ^ (unitLog x + 24) := zpow_le_zpow_right₀ (by norm_num) (by
      have : Int.log 2 |x| - 23 ≤ unitLog x := le_max_left _ _
      rw [abs_of_pos h0] at this
      omega)
    exact lt_of_lt_of_le (by exact_mod_cast h1) h2
  have hle : round x ≤ 2 ^ (unitLog x + 24) := round_le h0.le (rep_zpow _ (by omega)) hlt.le
  have hnn : 0 ≤ round x := le_round le_rfl ⟨0, 0, by simp, by norm_num, by norm_num⟩ h0.le
  rcases hle.eq_or_lt with h | h
  · rw [h]
    exact rep_zpow _ (by omega)
  refine ⟨Timestamp.roundHalfEven (x / ulp x), unitLog x, rfl, ?_, hk⟩
  have e : round x = (Timestamp.roundHalfEven (x / ulp x) : ℚ) * 2 ^ unitLog x := rfl
  rw [e] at h hnn
  generalize Timestamp.roundHalfEven (x / ulp x) = j at h hnn
  rw [zpow_add₀ (by norm_num), mul_comm ((2 : ℚ) ^ unitLog x)] at h
  have h1 := lt_of_mul_lt_mul_right h hu.le
  have h2 : (0 : ℚ) ≤ j := nonneg_of_mul_nonneg_left hnn hu
  have h3 : (0 : ℤ) ≤ j := by exact_mod_cast h2
  rw [abs_of_nonneg h3]
  have : (j : ℚ) < ((2 ^ 24 : ℤ) : ℚ) := by
    norm_num at h1 ⊢
    exact h1
  exact Int.cast_lt.mp this

theorem round_nonneg {x : ℚ} (h0 : 0 ≤ x) : 0 ≤ round x :=
  le_round le_rfl ⟨0, 0, by simp, by norm_num, by norm_num⟩ h0

/-- The error of a rounding. -/
theorem round_error_lt {x : ℚ} {e : ℤ} (he : -126 ≤ e) (h : |x| < 2 ^ (e + 1)) : |round x - x| ≤ 2 ^ (e - 24) := by
  rcases eq_or_ne x 0 with rfl | h0
  · rw [round_zero, sub_zero, abs_zero]
    exact (zpow_pos (by norm_num) _).le
  have hk := unitLog_le (e := e - 23) h0 (by omega) (by rwa [show e - 23 + 24 = e + 1 by ring])
  have hu : ulp x ≤ 2 ^ (e - 23) := zpow_le_zpow_right₀ (by norm_num) hk
  have := grid_error (ulp_pos x) x
  rw [← round_grid] at this
  have e1 : (2 : ℚ) ^ (e - 24) = 2 ^ (e - 23) / 2 := by
    rw [show e - 23 = e - 24 + 1 by ring, zpow_add₀ (by norm_num)]
    norm_num
  rw [e1]
  linarith

/-- The error of a rounding in proportion to the number. -/
theorem round_rel (x : ℚ) : |round x - x| ≤ |x| * (1 / 2 ^ 24) + 1 / 2 ^ 150 := by
  rcases eq_or_ne x 0 with rfl | h0
  · rw [round_zero, sub_zero, abs_zero, zero_mul, zero_add]
    positivity
  have h := grid_error (ulp_pos x) x
  rw [← round_grid] at h
  have hp : 0 < |x| := abs_pos.mpr h0
  have hl : (2 : ℚ) ^ (Int.log 2 |x|) ≤ |x| := by
    exact_mod_cast Int.zpow_log_le_self (b := 2) (by norm_num) hp
  have hu : ulp x ≤ |x| * (1 / 2 ^ 23) + 1 / 2 ^ 149 := by
    rw [ulp_eq]
    unfold unitLog
    rcases max_choice (Int.log 2 |x| - 23) (-149) with hm | hm
    · rw [hm, zpow_sub₀ (by norm_num)]
      have : (2 : ℚ) ^ (Int.log 2 |x|) / 2 ^ (23 : ℤ) ≤ |x| * (1 / 2 ^ 23) := by
        rw [div_eq_mul_one_div]
        refine mul_le_mul hl ?_ (by positivity) hp.le
        norm_cast
      have h2 : (0 : ℚ) ≤ 1 / 2 ^ 149 := by positivity
      linarith
    · rw [hm, zpow_neg, ← one_div]
      have : (0 : ℚ) ≤ |x| * (1 / 2 ^ 23) := by positivity
      have e : (1 : ℚ) / 2 ^ (149 : ℤ) = 1 / 2 ^ 149 := by norm_cast
      rw [e]
      linarith
  have e1 : (1 : ℚ) / 2 ^ 150 = 1 / 2 ^ 149 / 2 := by rw [pow_succ (2 : ℚ) 149]; field_simp
  have e2 : (1 : ℚ) / 2 ^ 24 = 1 / 2 ^ 23 / 2 := by norm_num
  rw [e1, e2]
  have : |x| * (1 / 2 ^ 23 / 2) = |x| * (1 / 2 ^ 23) / 2 := by ring
  rw [this]
  linarith

/-- The same for numbers that are not too small. -/
theorem round_rel_normal {x : ℚ} (h : 1 / 2 ^ 21 ≤ |x|) : |round x - x| ≤ |x| * (1 / 2 ^ 24) := by
  have hp : 0 < |x| := lt_of_lt_of_le (by positivity) h
  have h1 := grid_error (ulp_pos x) x
  rw [← round_grid] at h1
  have hl : (2 : ℚ) ^ (Int.log 2 |x|) ≤ |x| := by
    exact_mod_cast Int.zpow_log_le_self (b := 2) (by norm_num) hp
  have hlog : -21 ≤ Int.log 2 |x| := by
    refine (Int.zpow_le_iff_le_log (b := 2) (by norm_num) hp).mp ?_
    have : ((2 : ℕ) : ℚ) ^ (-21 : ℤ) = 1 / 2 ^ 21 := by norm_num
    rw [this]
    exact h
  have hu : ulp x = 2 ^ Int.log 2 |x| / 2 ^ 23 := by
    unfold ulp
    rw [max_eq_left (by omega), zpow_sub₀ (by norm_num)]
    norm_cast
  rw [hu] at h1
  have e2 : (1 : ℚ) / 2 ^ 24 = 1 / 2 ^ 23 / 2 := by norm_num
  rw [e2]
  refine h1.trans ?_
  have := div_le_div_of_nonneg_right hl (show (0 : ℚ) ≤ 2 ^ 23 by positivity)
  have e3 : |x| * (1 / 2 ^ 23 / 2) = |x| / 2 ^ 23 / 2 := by ring
  rw [e3]
  linarith

/-- Rounding keeps the order. -/
theorem round_mono {x y : ℚ} (h0 : 0 ≤ x) (h : x ≤ y) : round x ≤ round y := by
  rcases h0.eq_or_lt with rfl | h0
  · rw [round_zero]
    exact round_nonneg h
  have hy : 0 < y := lt_of_lt_of_le h0 h
  have hmono : unitLog x ≤ unitLog y := by
    unfold unitLog
    have : Int.log 2 |x| ≤ Int.log 2 |y| := by
      rw [abs_of_pos h0, abs_of_pos hy]
      exact Int.log_mono_right h0 h
    omega
  rcases hmono.eq_or_lt with he | he
  · rw [round_grid, round_grid, ulp_eq, ulp_eq, he]
    unfold grid
    have hu : (0 : ℚ) < 2 ^ unitLog y := zpow_pos (by norm_num) _
    exact mul_le_mul_of_nonneg_right (by
      exact_mod_cast Timestamp.roundHalfEven_mono (div_le_div_of_nonneg_right h hu.le)) hu.le
  · have hk : -149 ≤ unitLog x := le_max_right _ _
    have h1 : (2 : ℚ) ^ (unitLog y + 23) ≤ y := by
      have := le_of_lt_unitLog hy.ne' hk he
      rwa [abs_of_pos hy] at this
    have h2 : x < 2 ^ (unitLog y + 23) := by
      have a1 := Int.lt_zpow_succ_log_self (b := 2) (by norm_num) |x|
      rw [abs_of_pos h0] at a1
      have a2 : (2 : ℚ) ^ (Int.log 2 x + 1) ≤ 2 ^ (unitLog y + 23) := zpow_le_zpow_right₀ (by norm_num) (by
        have : Int.log 2 |x| - 23 ≤ unitLog x := le_max_left _ _
        rw [abs_of_pos h0] at this
        omega)
      exact lt_of_lt_of_le (by exact_mod_cast a1) a2
    exact (round_le h0.le (rep_zpow _ (by omega)) h2.le).trans
      (le_round (zpow_pos (by norm_num) _).le (rep_zpow _ (by omega)) h1)

/-- The smallest positive `f32`. -/
theorem rep_least {x : ℚ} (h0 : 0 < x) (h : Rep x) : 1 / 2 ^ 149 ≤ x := by
  obtain ⟨m, e, rfl, -, he⟩ := h
  have hp : (0 : ℚ) < 2 ^ e := zpow_pos (by norm_num) _
  have hm : (0 : ℚ) < m := by
    by_contra hc
    have := mul_nonpos_of_nonpos_of_nonneg (not_lt.mp hc) hp.le
    linarith
  have hm1 : (1 : ℚ) ≤ m := by
    have : (0 : ℤ) < m := by exact_mod_cast hm
    exact_mod_cast this
  have h1 : (2 : ℚ) ^ (-149 : ℤ) ≤ 2 ^ e := zpow_le_zpow_right₀ (by norm_num) he
  have e1 : (2 : ℚ) ^ (-149 : ℤ) = 1 / 2 ^ 149 := by rw [zpow_neg, ← one_div]; norm_cast
  rw [e1] at h1
  exact h1.trans (le_mul_of_one_le_left hp.le hm1)

/-- The smallest `f32` is not rounded to 0 by a factor above one half. -/
theorem round_least {a : ℚ} (h1 : 1 / 2 < a) (h2 : a ≤ 1) : round (1 / 2 ^ 149 * a) = 1 / 2 ^ 149 := by
  have e1 : (2 : ℚ) ^ (-149 : ℤ) = 1 / 2 ^ 149 := by rw [zpow_neg, ← one_div]; norm_cast
  have hp : (0 : ℚ) < 1 / 2 ^ 149 := by positivity
  have hx : 0 < 1 / 2 ^ 149 * a := mul_pos hp (by linarith)
  have hle : 1 / 2 ^ 149 * a ≤ 1 / 2 ^ 149 := mul_le_of_le_one_right hp.le h2
  have hk : unitLog (1 / 2 ^ 149 * a) = -149 := by
    apply le_antisymm
    · apply unitLog_le hx.ne' le_rfl
      rw [abs_of_pos hx, zpow_add₀ (by norm_num), e1]
      refine hle.trans_lt (lt_mul_of_one_lt_right hp (by norm_num))
    · exact le_max_right _ _
  rw [round_grid, ulp_eq, hk, e1]
  have := grid_near hp (y := 1 / 2 ^ 149 * a) 1 (by
    push_cast
    rw [one_mul, abs_lt]
    generalize (1 : ℚ) / 2 ^ 149 = g at *
    constructor <;> nlinarith)
  rw [this]
  push_cast
  rw [one_mul]

end Float32

namespace Follower32

open Float32 (Rep)

/-- The new level, with the coefficient as it is converted. -/
def step (a y x : ℚ) : ℚ := Float32.round (Float32.round (y * a) + Float32.round (x * Float32.round (1 - a)))

theorem mix_eq (y c x : ℚ) : mix y c x = step (Float32.round c) y x := rfl

theorem step_nonneg {a y x : ℚ} (ha : 0 ≤ a) (ha1 : a ≤ 1) (hy : 0 ≤ y) (hx : 0 ≤ x) : 0 ≤ step a y x :=
  Float32.round_nonneg (add_nonneg (Float32.round_nonneg (mul_nonneg hy ha))
    (Float32.round_nonneg (mul_nonneg hx (Float32.round_nonneg (by linarith)))))

/-- Louder before is louder after. -/
theorem step_mono {a y z x : ℚ} (ha : 0 ≤ a) (ha1 : a ≤ 1) (hy : 0 ≤ y) (hyz : y ≤ z) (hx : 0 ≤ x) :
    step a y x ≤ step a z x := by
  have h1 := Float32.round_nonneg (mul_nonneg hy ha)
  have h2 := Float32.round_nonneg (mul_nonneg hx (Float32.round_nonneg (show 0 ≤ 1 - a by linarith)))
  have h3 := Float32.round_mono (mul_nonneg hy ha) (mul_le_mul_of_nonneg_right hyz ha)
  exact Float32.round_mono (add_nonneg h1 h2) (by linarith)

/-- How far a step is rounded. -/
theorem step_error {a y x : ℚ} (ha : 0 ≤ a) (ha1 : 1 / 2 ^ 21 ≤ 1 - a) (hy : 0 ≤ y) (hx : 0 ≤ x) :
    |step a y x - (y * a + x * (1 - a))| ≤
      17 / 8 * (1 / 2 ^ 24) * (y * a + x * (1 - a)) + 1 / 2 ^ 24 * (x * (1 - a)) + 4 * (1 / 2 ^ 150) := by
  have hk : 0 < 1 - a := lt_of_lt_of_le (by positivity) ha1
  have e1 := Float32.round_rel_normal (x := 1 - a) (by rwa [abs_of_pos hk])
  have e2 := Float32.round_rel (y * a)
  have e3 := Float32.round_rel (x * Float32.round (1 - a))
  have e4 := Float32.round_rel (Float32.round (y * a) + Float32.round (x * Float32.round (1 - a)))
  have hb0 := Float32.round_nonneg hk.le
  have hz0 : 0 ≤ y * a := mul_nonneg hy ha
  have hp0 := Float32.round_nonneg hz0
  have hq0 := Float32.round_nonneg (mul_nonneg hx hb0)
  unfold step
  generalize Float32.round (Float32.round (y * a) + Float32.round (x * Float32.round (1 - a))) = s at *
  generalize Float32.round (x * Float32.round (1 - a)) = q at *
  generalize Float32.round (y * a) = p at *
  generalize Float32.round (1 - a) = b at *
  rw [abs_of_pos hk] at e1
  rw [abs_of_nonneg hz0] at e2
  rw [abs_of_nonneg (mul_nonneg hx hb0)] at e3
  rw [abs_of_nonneg (add_nonneg hp0 hq0)] at e4
  have hxb : |x * b - x * (1 - a)| ≤ x * (1 - a) * (1 / 2 ^ 24) := by
    rw [← mul_sub, abs_mul, abs_of_nonneg hx, mul_assoc]
    exact mul_le_mul_of_nonneg_left e1 hx
  have hw0 : 0 ≤ x * (1 - a) := mul_nonneg hx hk.le
  generalize x * (1 - a) = w at *
  generalize x * b = xb at *
  generalize y * a = z at *
  obtain ⟨u, hu⟩ : ∃ u : ℚ, u = 1 / 2 ^ 24 := ⟨_, rfl⟩
  obtain ⟨η, hη⟩ : ∃ η : ℚ, η = 1 / 2 ^ 150 := ⟨_, rfl⟩
  have hη0 : 0 < η := by rw [hη]; positivity
  rw [← hu] at e2 e3 e4 hxb ⊢
  rw [← hη] at e2 e3 e4 ⊢
  have hu0 : 0 < u := by rw [hu]; positivity
  have hu1 : u ≤ 1 / 64 := by rw [hu]; norm_num
  clear hu hη
  rw [abs_le] at *
  have u2 : u * u ≤ u / 64 := by nlinarith
  have f1 : w * u * u ≤ w * u / 64 := by nlinarith
  have f2 : z * u * u ≤ z * u / 64 := by nlinarith
  have f3 : η * u ≤ η / 64 := by nlinarith
  have f4 : xb * u ≤ w * u + w * u / 64 := by nlinarith [mul_le_mul_of_nonneg_right hxb.2 hu0.le]
  have f5 : w * u * u * u ≤ w * u / 64 := by nlinarith [mul_nonneg (mul_nonneg hw0 hu0.le) hu0.le]
  have f6 : (p + q) * u ≤ z * u + z * u / 64 + w * u + 3 * (w * u / 64) + η / 16 := by
    have a1 : p ≤ z + z * u + η := by linarith
    have a2 : q ≤ w + w * u + (w * u + w * u / 64) + η := by linarith
    have a3 := mul_le_mul_of_nonneg_right a1 hu0.le
    have a4 := mul_le_mul_of_nonneg_right a2 hu0.le
    nlinarith
  have g1 : 0 ≤ w * u := by positivity
  have g2 : 0 ≤ z * u := by positivity
  constructor <;> nlinarith

end Follower32
end Rawdio
