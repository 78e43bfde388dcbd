import Verif.Lemmas.Float
import Verif.Model.Files

/-! Helper lemmas about samples in files. -/

namespace Rawdio

namespace Float32

theorem log_eq {y : ℚ} {e : ℤ} (h1 : (2 : ℚ) ^ e ≤ y) (h2 : y < 2 ^ (e + 1)) : Int.log 2 y = e := by
  have hp : 0 < y := lt_of_lt_of_le (zpow_pos (by norm_num) _) h1
  apply le_antisymm
  · have := (Int.lt_zpow_iff_log_lt (b := 2) (by norm_num) hp (x := e + 1)).mp (by exact_mod_cast h2)
    omega
  · exact (Int.zpow_le_iff_le_log (b := 2) (by norm_num) hp).mp (by exact_mod_cast h1)

/-- Rounding to the multiples of `u`. -/
def grid (u y : ℚ) : ℚ := Timestamp.roundHalfEven (y / u) * u

theorem grid_error {u : ℚ} (hu : 0 < u) (y : ℚ) : |grid u y - y| ≤ u / 2 := by
  have h := Timestamp.roundHalfEven_error (y / u)
  have e : grid u y - y = ((Timestamp.roundHalfEven (y / u) : ℚ) - y / u) * u := by
    unfold grid
    field_simp
  rw [e, abs_mul, abs_of_pos hu]
  have := mul_le_mul_of_nonneg_right h hu.le
  linarith

theorem le_grid {u y : ℚ} (hu : 0 < u) (m : ℤ) (h : m * u ≤ y) : m * u ≤ grid u y := by
  have h1 : (m : ℚ) ≤ y / u := (le_div_iff₀ hu).mpr h
  have h2 := Timestamp.roundHalfEven_mono h1
  rw [Timestamp.roundHalfEven_int] at h2
  exact mul_le_mul_of_nonneg_right (by exact_mod_cast h2) hu.le

theorem grid_le {u y : ℚ} (hu : 0 < u) (m : ℤ) (h : y ≤ m * u) : grid u y ≤ m * u := by
  have h1 : y / u ≤ (m : ℚ) := (div_le_iff₀ hu).mpr h
  have h2 := Timestamp.roundHalfEven_mono h1
  rw [Timestamp.roundHalfEven_int] at h2
  exact mul_le_mul_of_nonneg_right (by exact_mod_cast h2) hu.le

theorem grid_near {u y : ℚ} (hu : 0 < u) (m : ℤ) (h : |m * u - y| < u / 2) : grid u y = m * u := by
  unfold grid
  rw [Timestamp.roundHalfEven_eq_of_abs_lt (n := m)]
  have e : (m : ℚ) - y / u = (m * u - y) / u := by field_simp
  rw [e, abs_div, abs_of_pos hu, div_lt_iff₀ hu]
  linarith

theorem round_eq {y : ℚ} {e : ℤ} (he : -126 ≤ e) (h1 : (2 : ℚ) ^ e ≤ y) (h2 : y < 2 ^ (e + 1)) :
    round y = grid (2 ^ (e - 23)) y := by
  have hp : 0 < y := lt_of_lt_of_le (zpow_pos (by norm_num) _) h1
  have : ulp y = 2 ^ (e - 23) := by
    unfold ulp
    rw [abs_of_pos hp, log_eq h1 h2, max_eq_left (by omega)]
  rw [round, this, grid]

theorem round64_eq {y : ℚ} {e : ℤ} (he : -1022 ≤ e) (h1 : (2 : ℚ) ^ e ≤ y) (h2 : y < 2 ^ (e + 1)) :
    Float64.round y = grid (2 ^ (e - 52)) y := by
  have hp : 0 < y := lt_of_lt_of_le (zpow_pos (by norm_num) _) h1
  have : Float64.ulp y = 2 ^ (e - 52) := by
    unfold Float64.ulp
    rw [abs_of_pos hp, log_eq h1 h2, max_eq_left (by omega)]
  rw [Float64.round, this, grid]

theorem roundHalfEven_neg (x : ℚ) : Timestamp.roundHalfEven (-x) = -Timestamp.roundHalfEven x := by
  by_cases hx : (⌊x⌋ : ℚ) = x
  · have h1 : -x = ((-⌊x⌋ : ℤ) : ℚ) := by push_cast; rw [hx]
    rw [h1, Timestamp.roundHalfEven_int, ← hx, Timestamp.roundHalfEven_int, hx]
  · have hl := Int.floor_le x
    have hu := Int.lt_floor_add_one x
    have hlt : (⌊x⌋ : ℚ) < x := lt_of_le_of_ne hl hx
    have hf : ⌊-x⌋ = -⌊x⌋ - 1 := by
      rw [Int.floor_eq_iff]
      push_cast
      constructor <;> linarith
    unfold Timestamp.roundHalfEven
    simp only [hf]
    push_cast
    split_ifs <;> first | omega | (exfalso; linarith)

theorem round_neg (x : ℚ) : round (-x) = -round x := by
  unfold round ulp
  rw [abs_neg, neg_div, roundHalfEven_neg]
  push_cast
  ring

theorem round64_neg (x : ℚ) : Float64.round (-x) = -Float64.round x := by
  unfold Float64.round Float64.ulp
  rw [abs_neg, neg_div, roundHalfEven_neg]
  push_cast
  ring

theorem round_zero : round 0 = 0 := by
  have := round_neg 0
  rw [neg_zero] at this
  linarith

theorem round64_zero : Float64.round 0 = 0 := by
  have := round64_neg 0
  rw [neg_zero] at this
  linarith

end Float32

namespace Wav

open Float32

/-- The number of the loudest sample. -/
theorem maxValue_24 : maxValue 24 = 8388607 := by norm_num [maxValue]

theorem decode_neg (bits : Nat) (n : Int) : decode bits (-n) = -decode bits n := by
  unfold decode
  rw [← round_neg, ← round64_neg]
  push_cast
  rw [neg_div]

theorem toInt_neg (m : Int) (x : ℚ) (h : |Float32.round (x * m)| ≤ 2 ^ 30) :
    toInt m (.finite (-x)) = -toInt m (.finite x) := by
  obtain ⟨h1, h2⟩ := abs_le.mp h
  simp only [toInt]
  rw [neg_mul, round_neg]
  generalize Float32.round (x * m) = p at *
  have a1 : ⌊p⌋ ≤ 2 ^ 30 := Int.floor_le_iff.mpr (by push_cast; linarith)
  have a2 : -2 ^ 30 ≤ ⌊p⌋ := Int.le_floor.mpr (by push_cast; linarith)
  have a3 : ⌈p⌉ ≤ 2 ^ 30 := Int.ceil_le.mpr (by push_cast; linarith)
  have a4 : -2 ^ 30 ≤ ⌈p⌉ := Int.le_ceil_iff.mpr (by push_cast; linarith)
  rcases lt_trichotomy p 0 with hp | hp | hp
  · rw [if_pos (by linarith), if_neg (by linarith), Int.floor_neg]
    omega
  · subst hp
    simp
  · rw [if_neg (by linarith), if_pos (by linarith), Int.ceil_neg]
    omega

/-- A positive number of a 24 bit file, read and multiplied again. -/
theorem product_pos (n : Nat) (h0 : 0 < n) (hM : n ≤ 8388607) :
    0 ≤ decode 24 n ∧ decode 24 n ≤ 1 ∧ Float32.round (decode 24 n * 8388607) = n := by
  rcases Nat.lt_or_ge n 8388607 with hlt | hge
  swap
  · obtain rfl : n = 8388607 := by omega
    have e1 : Float64.round 1 = 1 := by
      rw [round64_eq (e := 0) (by norm_num) (by norm_num) (by norm_num)]
      have := grid_near (u := 2 ^ ((0 : ℤ) - 52)) (y := 1) (by positivity) (2 ^ 52) (by norm_num)
      rw [this]
      norm_num
    have e2 : Float32.round 1 = 1 := by
      rw [round_eq (e := 0) (by norm_num) (by norm_num) (by norm_num)]
      have := grid_near (u := 2 ^ ((0 : ℤ) - 23)) (y := 1) (by positivity) (2 ^ 23) (by norm_num)
      rw [this]
      norm_num
    have e3 : decode 24 (8388607 : Nat) = 1 := by
      unfold decode
      rw [maxValue_24]
      norm_num [e1, e2]
    rw [e3]
    refine ⟨by norm_num, le_refl _, ?_⟩
    rw [round_eq (e := 22) (by norm_num) (by norm_num) (by norm_num)]
    have := grid_near (u := 2 ^ ((22 : ℤ) - 23)) (y := 1 * 8388607) (by positivity) (2 * 8388607) (by norm_num)
    rw [this]
    norm_num
  set k := Nat.log 2 n with hk
  have hk1 : 2 ^ k ≤ n := Nat.pow_log_le_self 2 (by omega)
  have hk2 : n < 2 ^ (k + 1) := Nat.lt_pow_succ_log_self (by norm_num) n
  have hk3 : k ≤ 22 := by
    by_contra hc
    have : 2 ^ 23 ≤ 2 ^ k := Nat.pow_le_pow_right (by norm_num) (by omega)
    omega
  have hA : n * 2 ^ 22 + 2 ^ 21 ≤ 2 ^ k * 8388607 := by
    rw [pow_succ] at hk2
    rcases Nat.lt_or_ge k 22 with h | h
    · have : 2 ^ k ≤ 2 ^ 21 := Nat.pow_le_pow_right (by norm_num) (by omega)
      omega
    · have : 2 ^ k = 2 ^ 22 := by rw [show k = 22 by omega]
      omega
  have hA22 : 2 ^ k ≤ 2 ^ 22 := Nat.pow_le_pow_right (by norm_num) hk3
  have hm : (n : ℤ) * 2 ^ (23 - k) * 2 ^ k = n * 2 ^ 23 := by
    rw [mul_assoc, ← pow_add, Nat.sub_add_cancel (by omega)]
  have hz : ∀ j : ℤ, (2 : ℚ) ^ ((k : ℤ) + j) = 2 ^ k * 2 ^ j := fun j => by
    rw [zpow_add₀ (by norm_num), zpow_natCast]
  -- everything in terms of the power of two below the number
  have qA1 : ((2 : ℚ) ^ k) ≤ n := by exact_mod_cast hk1
  have qA2 : (n : ℚ) + 1 ≤ 2 * 2 ^ k := by
    rw [pow_succ] at hk2
    have : n + 1 ≤ 2 * 2 ^ k := by omega
    exact_mod_cast this
  have qA3 : (n : ℚ) * 2 ^ 22 + 2 ^ 21 ≤ 2 ^ k * 8388607 := by exact_mod_cast hA
  have qA4 : (2 : ℚ) ^ k ≤ 2 ^ 22 := by exact_mod_cast hA22
  have qA5 : (1 : ℚ) ≤ 2 ^ k := one_le_pow₀ (by norm_num)
  have qm : (n : ℚ) * 2 ^ (23 - k) * 2 ^ k = n * 2 ^ 23 := by exact_mod_cast hm
  have z1 := hz (-23)
  have z2 := hz (-22)
  have z3 := hz (-46)
  have z4 := hz (-75)
  have z5 := hz (-24)
  have z6 := hz 0
  have z7 := hz 1
  have z8 := hz (-1)
  generalize hAd : (2 : ℚ) ^ k = A at *
  norm_num at z1 z2 z3 z4 z5 z6 z7 z8
  have hdec : decode 24 (n : Nat) = Float32.round (Float64.round (n / 8388607)) := by
    unfold decode
    rw [maxValue_24]
    norm_num
  rw [hdec]
  generalize hq : (n : ℚ) / 8388607 = q
  have hq' : (n : ℚ) = q * 8388607 := by rw [← hq]; field_simp
  have q1 : A / 2 ^ 23 ≤ q := by linarith
  have q2 : q + 1 / 2 ^ 25 ≤ A / 2 ^ 22 := by linarith
  -- the division
  have ry : Float64.round q = grid (A / 2 ^ 75) q := by
    rw [round64_eq (e := (k : ℤ) + -23) (by omega)]
    · congr 1
      rw [show (k : ℤ) + -23 - 52 = k + -75 by ring, z4]
      norm_num
      ring
    · rw [z1]; linarith
    · rw [show (k : ℤ) + -23 + 1 = k + -22 by ring, z2]; linarith
  have uy : (0 : ℚ) < A / 2 ^ 75 := by positivity
  have y0 := abs_le.mp (grid_error uy q)
  have y1 := le_grid uy (y := q) (2 ^ 52) (by push_cast; linarith)
  rw [← ry] at y0 y1
  generalize hy : Float64.round q = y at *
  push_cast at y1
  have yl : A / 2 ^ 23 ≤ y := by linarith
  have yu : y < A / 2 ^ 22 := by linarith
  -- the conversion
  have rx : Float32.round y = grid (A / 2 ^ 46) y := by
    rw [round_eq (e := (k : ℤ) + -23) (by omega)]
    · congr 1
      rw [show (k : ℤ) + -23 - 23 = k + -46 by ring, z3]
      norm_num
      ring
    · rw [z1]; linarith
    · rw [show (k : ℤ) + -23 + 1 = k + -22 by ring, z2]; linarith
  have ux : (0 : ℚ) < A / 2 ^ 46 := by positivity
  have x0 := abs_le.mp (grid_error ux y)
  have x1 := le_grid ux (y := y) (2 ^ 23) (by push_cast; linarith)
  have x2 := grid_le ux (y := y) (2 ^ 24) (by push_cast; linarith)
  have x3 : (n : ℚ) = A → (2 ^ 23 + 1) * (A / 2 ^ 46) ≤ grid (A / 2 ^ 46) y := by
    intro hn
    have a := le_grid uy (y := q) ((2 ^ 23 + 1) * 2 ^ 29) (by push_cast; linarith)
    rw [← ry] at a
    push_cast at a
    have b := le_grid ux (y := y) (2 ^ 23 + 1) (by push_cast; linarith)
    push_cast at b
    linarith
  rw [← rx] at x0 x1 x2 x3
  generalize hx : Float32.round y = x at *
  push_cast at x1 x2
  refine ⟨by linarith, by linarith, ?_⟩
  -- the product
  rcases le_or_gt A (x * 8388607) with hp | hp
  · rw [round_eq (e := (k : ℤ) + 0) (by omega) (by rw [add_zero, zpow_natCast, z6]; linarith) (by
      rw [show (k : ℤ) + 0 + 1 = k + 1 by ring, z7]; linarith)]
    have e : (2 : ℚ) ^ ((k : ℤ) + 0 - 23) = A / 2 ^ 23 := by
      rw [show (k : ℤ) + 0 - 23 = k + -23 by ring, z1]
      norm_num
      ring
    rw [e]
    have e2 : ((n * 2 ^ (23 - k) : ℤ) : ℚ) * (A / 2 ^ 23) = n := by
      push_cast
      rw [mul_div_assoc', qm]
      field_simp
    have := grid_near (u := A / 2 ^ 23) (y := x * 8388607) (by positivity) (n * 2 ^ (23 - k)) (by
      rw [e2, abs_lt]
      constructor <;> linarith)
    rw [this, e2]
  · have hn : (n : ℚ) = A := by
      have h1 : (n : ℚ) < A + 1 := by linarith
      rw [← hAd] at h1 ⊢
      have h2 : n < 2 ^ k + 1 := by exact_mod_cast h1
      have h3 : n = 2 ^ k := by omega
      exact_mod_cast h3
    have x4 := x3 hn
    rw [round_eq (e := (k : ℤ) + -1) (by omega) (by rw [z8]; linarith) (by
      rw [show (k : ℤ) + -1 + 1 = k by ring, zpow_natCast, z6]; linarith)]
    have e : (2 : ℚ) ^ ((k : ℤ) + -1 - 23) = A / 2 ^ 24 := by
      rw [show (k : ℤ) + -1 - 23 = k + -24 by ring, z5]
      norm_num
      ring
    rw [e]
    have e2 : ((2 ^ 24 : ℤ) : ℚ) * (A / 2 ^ 24) = n := by
      push_cast
      rw [hn]
      field_simp
      norm_num
    have := grid_near (u := A / 2 ^ 24) (y := x * 8388607) (by positivity) (2 ^ 24) (by
      rw [e2, abs_lt]
      constructor <;> linarith)
    rw [this, e2]

theorem round_error {x : ℚ} {e : ℤ} (he : -126 ≤ e) (h : |x| < 2 ^ (e + 1)) : |Float32.round x - x| ≤ 2 ^ (e - 24) := by
  rcases eq_or_ne x 0 with rfl | h0
  · rw [round_zero, sub_zero, abs_zero]
    exact (zpow_pos (by norm_num) _).le
  have hp : 0 < |x| := abs_pos.mpr h0
  have hl := (Int.lt_zpow_iff_log_lt (b := 2) (by norm_num) hp (x := e + 1)).mp (by exact_mod_cast h)
  have hu : Float32.ulp x ≤ 2 ^ (e - 23) := by
    unfold Float32.ulp
    exact zpow_le_zpow_right₀ (by norm_num) (by omega)
  have hu0 : 0 < Float32.ulp x := zpow_pos (by norm_num) _
  have := grid_error hu0 x
  have e1 : (2 : ℚ) ^ (e - 24) = 2 ^ (e - 23) / 2 := by
    rw [show e - 23 = e - 24 + 1 by ring, zpow_add₀ (by norm_num)]
    norm_num
  rw [show Float32.round x = grid (Float32.ulp x) x from rfl, e1]
  linarith

/-- A number of less than 2^23 is not rounded past a whole number. -/
theorem round_le_int {x : ℚ} (N : Int) (h : |x| < 2 ^ 23) (hN : x ≤ N) : Float32.round x ≤ N := by
  rcases eq_or_ne x 0 with rfl | h0
  · rwa [round_zero]
  have hp : 0 < |x| := abs_pos.mpr h0
  have hl := (Int.lt_zpow_iff_log_lt (b := 2) (by norm_num) hp (x := 23)).mp (by exact_mod_cast h)
  have hu0 : 0 < Float32.ulp x := zpow_pos (by norm_num) _
  obtain ⟨j, hj⟩ : ∃ j : Nat, max (Int.log 2 |x| - 23) (-149) = -(j : ℤ) :=
    ⟨(-max (Int.log 2 |x| - 23) (-149)).toNat, by omega⟩
  have hu : Float32.ulp x * 2 ^ j = 1 := by
    unfold Float32.ulp
    rw [hj, zpow_neg, zpow_natCast]
    field_simp
  have e : ((N * 2 ^ j : ℤ) : ℚ) * Float32.ulp x = N := by
    push_cast
    rw [mul_assoc, mul_comm ((2 : ℚ) ^ j), hu, mul_one]
  have := grid_le hu0 (y := x) (N * 2 ^ j) (by rw [e]; exact hN)
  rwa [e] at this

theorem round_abs_le {x : ℚ} (N : Int) (h : |x| < 2 ^ 23) (hN : |x| ≤ N) : |Float32.round x| ≤ N := by
  rw [abs_le] at hN ⊢
  have h1 := round_le_int N h hN.2
  have h2 := round_le_int (x := -x) N (by rwa [abs_neg]) (by linarith)
  rw [round_neg] at h2
  exact ⟨by linarith, h1⟩

theorem clamped_le (x : ℚ) : |max (-1) (min 1 x)| ≤ 1 :=
  abs_le.mpr ⟨le_max_left _ _, max_le (by norm_num) (min_le_left _ _)⟩

/-- The number written for a finite value. -/
theorem toInt_spec {x : ℚ} (hx : |x| ≤ 1) : |toInt 8388607 (.finite x)| ≤ 8388607 ∧
    |(toInt 8388607 (.finite x) : ℚ) - x * 8388607| ≤ 5 / 4 := by
  have hp : |x * 8388607| ≤ ((8388607 : ℤ) : ℚ) := by
    rw [abs_mul]
    norm_num
    linarith
  have hp' : |x * 8388607| < 2 ^ 23 := lt_of_le_of_lt hp (by norm_num)
  have h1 := abs_le.mp (round_abs_le 8388607 hp' hp)
  have h2 := abs_le.mp (round_error (x := x * 8388607) (e := 22) (by norm_num) (by
    rw [show (22 : ℤ) + 1 = ((23 : Nat) : ℤ) by norm_num, zpow_natCast]; exact hp'))
  rw [show (2 : ℚ) ^ ((22 : ℤ) - 24) = 1 / 4 by norm_num] at h2
  simp only [toInt]
  rw [show ((8388607 : ℤ) : ℚ) = 8388607 by norm_num] at h1 ⊢
  generalize x * 8388607 = y at *
  generalize Float32.round y = p at *
  have b1 : ∀ z : ℤ, |z| ≤ 8388607 → max (-2 ^ 31) (min (2 ^ 31 - 1) z) = z := by
    intro z hz
    have := abs_le.mp hz
    omega
  by_cases h0 : 0 ≤ p
  · rw [if_pos h0]
    have f1 := Int.floor_le p
    have f2 := Int.lt_floor_add_one p
    have f3 : |⌊p⌋| ≤ 8388607 := abs_le.mpr
      ⟨Int.le_floor.mpr (by push_cast; linarith), Int.floor_le_iff.mpr (by push_cast; linarith)⟩
    rw [b1 _ f3]
    exact ⟨f3, abs_le.mpr ⟨by linarith, by linarith⟩⟩
  · rw [if_neg h0]
    have f1 := Int.le_ceil p
    have f2 := Int.ceil_lt_add_one p
    have f3 : |⌈p⌉| ≤ 8388607 := abs_le.mpr
      ⟨Int.le_ceil_iff.mpr (by push_cast; linarith), Int.ceil_le.mpr (by push_cast; linarith)⟩
    rw [b1 _ f3]
    exact ⟨f3, abs_le.mpr ⟨by linarith, by linarith⟩⟩

theorem encode_le (v : F32) : |encode v| ≤ 8388607 := by
  unfold encode
  rw [maxValue_24]
  cases v with
  | nan => simp [clamp, toInt]
  | infinite b => exact (toInt_spec (by cases b <;> norm_num)).1
  | finite x => exact (toInt_spec (clamped_le x)).1

theorem decode_error {n : Int} (h : |n| ≤ 8388607) : |decode 24 n - n / 8388607| ≤ 1 / 2 ^ 24 + 1 / 2 ^ 53 + 1 / 2 ^ 60 := by
  unfold decode
  rw [maxValue_24]
  push_cast
  have hn : |(n : ℚ)| ≤ 8388607 := by exact_mod_cast h
  have hq : |(n : ℚ) / 8388607| ≤ 1 := by
    rw [abs_div, abs_of_pos (by norm_num : (0 : ℚ) < 8388607)]
    exact (div_le_one (by norm_num)).mpr hn
  have h1 := Float64.round_error_of_le hq
  generalize (n : ℚ) / 8388607 = q at *
  generalize Float64.round q = y at *
  have h1' := abs_le.mp h1
  have hq' := abs_le.mp hq
  have h2 := round_error (x := y) (e := 0) (by norm_num) (by rw [abs_lt]; constructor <;> norm_num <;> linarith)
  norm_num at h2
  have h2' := abs_le.mp h2
  rw [abs_le]
  constructor <;> linarith

/-- A number of less than 2^53 is not rounded past a whole number. -/
theorem int_le_round64 {x : ℚ} (N : Int) (h : |x| < 2 ^ 53) (hN : N ≤ x) : N ≤ Float64.round x := by
  rcases eq_or_ne x 0 with rfl | h0
  · rwa [round64_zero]
  have hp : 0 < |x| := abs_pos.mpr h0
  have hl := (Int.lt_zpow_iff_log_lt (b := 2) (by norm_num) hp (x := 53)).mp (by exact_mod_cast h)
  obtain ⟨j, hj⟩ : ∃ j : Nat, max (Int.log 2 |x| - 52) (-1074) = -(j : ℤ) :=
    ⟨(-max (Int.log 2 |x| - 52) (-1074)).toNat, by omega⟩
  have hu : Float64.ulp x * 2 ^ j = 1 := by
    unfold Float64.ulp
    rw [hj, zpow_neg, zpow_natCast]
    field_simp
  have e : ((N * 2 ^ j : ℤ) : ℚ) * Float64.ulp x = N := by
    push_cast
    rw [mul_assoc, mul_comm ((2 : ℚ) ^ j), hu, mul_one]
  have := le_grid (Float64.ulp_pos x) (y := x) (N * 2 ^ j) (by rw [e]; exact hN)
  rwa [e] at this

/-- A duration is cut to whole seconds. -/
theorem totalFrames_eq (sr s n : Nat) (hs : s < 2 ^ 22) (hn : n < 10 ^ 9) : totalFrames sr s n = sr * s := by
  have hn' : (n : ℚ) ≤ 10 ^ 9 - 1 := by
    have : n + 1 ≤ 10 ^ 9 := hn
    have : (n : ℚ) + 1 ≤ 10 ^ 9 := by exact_mod_cast this
    linarith
  have hs' : (s : ℚ) ≤ 2 ^ 22 := by exact_mod_cast hs.le
  have hs0 : (0 : ℚ) ≤ s := Nat.cast_nonneg _
  have hn0 : (0 : ℚ) ≤ n := Nat.cast_nonneg _
  have hq0 : (0 : ℚ) ≤ n / 10 ^ 9 := by positivity
  have hq1 : (n : ℚ) / 10 ^ 9 ≤ 1 - 1 / 10 ^ 9 := by
    rw [div_le_iff₀ (by norm_num)]
    linarith
  have a1 := abs_le.mp (Float64.round_error_of_le (x := n / 10 ^ 9) (b := 1) (abs_le.mpr ⟨by linarith, by linarith⟩))
  have a2 := int_le_round64 (x := n / 10 ^ 9) 0 (abs_lt.mpr ⟨by linarith, by linarith⟩) (by exact_mod_cast hq0)
  generalize hq : (n : ℚ) / 10 ^ 9 = q at *
  generalize ha : Float64.round q = a at *
  push_cast at a2
  have b1 := abs_le.mp (Float64.round_error_of_le (x := s + a) (b := 2 ^ 22 + 2) (abs_le.mpr ⟨by linarith, by linarith⟩))
  have b2 := int_le_round64 (x := s + a) s (abs_lt.mpr ⟨by linarith, by linarith⟩) (by push_cast; linarith)
  have : ⌊Float64.round (s + a)⌋ = s := by
    rw [Int.floor_eq_iff]
    refine ⟨b2, ?_⟩
    push_cast
    linarith
  rw [totalFrames, hq, ha, this, Int.toNat_natCast]

end Wav
end Rawdio
