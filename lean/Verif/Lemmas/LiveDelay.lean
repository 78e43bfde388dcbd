import Verif.Lemmas.Files
import Verif.Spec.LiveHost

/-! Helper lemmas about the delay of the live host. -/

namespace Rawdio
namespace LiveHost

open Float32 (grid grid_near round64_eq round64_neg round64_zero)

/-- A thousandth as a 64 bit float. -/
theorem thousandth : Float64.round (1 / 1000) = 4611686018427388 / 2 ^ 62 := by
  rw [round64_eq (e := -10) (by norm_num) (by norm_num) (by norm_num),
    grid_near (by norm_num) 4611686018427388 (by rw [abs_lt]; constructor <;> norm_num)]
  norm_num

theorem round64_le_int {x : ℚ} (N : Int) (h : |x| < 2 ^ 53) (hN : x ≤ N) : Float64.round x ≤ N := by
  have := Wav.int_le_round64 (x := -x) (-N) (by rwa [abs_neg]) (by push_cast; linarith)
  rw [round64_neg] at this
  push_cast at this
  linarith

/-- Whole milliseconds. -/
theorem whole (k : Nat) (hk0 : 0 < k) (hk : k < 2 ^ 32) :
    Float64.round ((k : ℚ) + k * 96 / 2 ^ 62) = k := by
  obtain ⟨e, he⟩ : ∃ e, e = Nat.log 2 k := ⟨_, rfl⟩
  have h1 : 2 ^ e ≤ k := by rw [he]; exact Nat.pow_log_le_self 2 (by omega)
  have h2 : k + 1 ≤ 2 ^ (e + 1) := by rw [he]; exact Nat.lt_pow_succ_log_self (by norm_num) k
  have he32 : e < 32 := by rw [he]; exact Nat.log_lt_of_lt_pow (by omega) hk
  have h1' : (2 : ℚ) ^ e ≤ k := by exact_mod_cast h1
  have h2' : (k : ℚ) + 1 ≤ 2 ^ (e + 1) := by exact_mod_cast h2
  have hk' : (k : ℚ) ≤ 2 ^ 32 := by exact_mod_cast hk.le
  have hp : (0 : ℚ) ≤ k := Nat.cast_nonneg _
  obtain ⟨d, hd⟩ : ∃ d : Nat, e + d = 52 := ⟨52 - e, by omega⟩
  have hdp : (2 : ℚ) ^ e * 2 ^ d = 2 ^ 52 := by rw [← pow_add, hd]
  have hu : (2 : ℚ) ^ ((e : ℤ) - 52) = 1 / 2 ^ d := by
    have e1 : ((e : ℤ) - 52) = -(d : ℤ) := by omega
    rw [e1, zpow_neg, zpow_natCast, one_div]
  have hpos : (0 : ℚ) < 2 ^ d := by positivity
  rw [round64_eq (e := e) (by omega) (by
    rw [zpow_natCast]
    have : (0 : ℚ) ≤ k * 96 / 2 ^ 62 := by positivity
    linarith) (by
    have e1 : ((e : ℤ) + 1) = ((e + 1 : ℕ) : ℤ) := by push_cast; ring
    rw [e1, zpow_natCast]
    have : (k : ℚ) * 96 / 2 ^ 62 < 1 := by
      rw [div_lt_one (by norm_num)]
      linarith
    linarith), hu, grid_near (by positivity) (k * 2 ^ d)]
  · push_cast
    field_simp
  · push_cast
    have e1 : (k : ℚ) * 2 ^ d * (1 / 2 ^ d) = k := by field_simp
    rw [e1]
    have e2 : (k : ℚ) - (k + k * 96 / 2 ^ 62) = -(k * 96 / 2 ^ 62) := by ring
    rw [e2, abs_neg, abs_of_nonneg (by positivity)]
    have e3 : (k : ℚ) * 2 ^ d ≤ 2 ^ 53 := by
      have : (k : ℚ) ≤ 2 ^ e * 2 := by rw [pow_succ] at h2'; linarith
      calc (k : ℚ) * 2 ^ d ≤ 2 ^ e * 2 * 2 ^ d := mul_le_mul_of_nonneg_right this hpos.le
        _ = 2 ^ e * 2 ^ d * 2 := by ring
        _ = 2 ^ 53 := by rw [hdp]; norm_num
    rw [div_div, div_lt_div_iff₀ (by norm_num) (by positivity)]
    have : (k : ℚ) * 96 * (2 ^ d * 2) = k * 2 ^ d * 192 := by ring
    rw [this]
    linarith

/-- The delay in frames is a millisecond, rounded up. -/
theorem delay_frames (sr : Nat) (h : sr < 2 ^ 32) :
    ⌈Float64.round (Float64.round (1 / 1000) * sr)⌉.toNat = millisecond sr := by
  rw [thousandth]
  obtain ⟨k, r, hr, rfl⟩ : ∃ k r, r < 1000 ∧ sr = 1000 * k + r :=
    ⟨sr / 1000, sr % 1000, Nat.mod_lt _ (by norm_num), (Nat.div_add_mod ..).symm⟩
  have hk : (k : ℚ) ≤ 2 ^ 23 := by
    have : k ≤ 2 ^ 23 := by omega
    exact_mod_cast this
  have hk0 : (0 : ℚ) ≤ k := Nat.cast_nonneg _
  rcases Nat.eq_zero_or_pos r with rfl | hr0
  · have hm : millisecond (1000 * k + 0) = k := by unfold millisecond; omega
    rw [hm]
    rcases Nat.eq_zero_or_pos k with rfl | hk1
    · simp [round64_zero]
    · have e : (4611686018427388 / 2 ^ 62 : ℚ) * ((1000 * k + 0 : ℕ) : ℚ) = k + k * 96 / 2 ^ 62 := by
        push_cast
        ring
      rw [e, whole k hk1 (by omega)]
      simp
  · have hm : millisecond (1000 * k + r) = k + 1 := by unfold millisecond; omega
    rw [hm]
    have hr1 : (1 : ℚ) ≤ r := by exact_mod_cast hr0
    have hr2 : (r : ℚ) ≤ 999 := by exact_mod_cast Nat.le_of_lt_succ hr
    obtain ⟨y, hy⟩ : ∃ y : ℚ, y = 4611686018427388 / 2 ^ 62 * ((1000 * k + r : ℕ) : ℚ) := ⟨_, rfl⟩
    have e : y = k + r / 1000 + (1000 * k + r) * (96 / 1000) / 2 ^ 62 := by
      rw [hy]
      push_cast
      ring
    have l1 : (k : ℚ) + 1 / 1000 ≤ y := by
      have : (0 : ℚ) ≤ (1000 * k + r) * (96 / 1000) / 2 ^ 62 := by positivity
      rw [e]
      linarith
    have l2 : y ≤ k + 1 := by
      have : (1000 * (k : ℚ) + r) * (96 / 1000) / 2 ^ 62 ≤ 1 / 1000 := by
        rw [div_le_iff₀ (by norm_num)]
        linarith
      rw [e]
      linarith
    rw [← hy]
    have b := abs_le.mp (Float64.round_error_of_le (x := y) (b := 2 ^ 24) (abs_le.mpr ⟨by linarith, by linarith⟩))
    have u := round64_le_int (x := y) (k + 1) (abs_lt.mpr ⟨by linarith, by linarith⟩) (by push_cast; linarith)
    push_cast at u
    have : ⌈Float64.round y⌉ = k + 1 := by
      rw [Int.ceil_eq_iff]
      push_cast
      refine ⟨?_, u⟩
      have := b.1
      norm_num at this
      linarith
    rw [this]
    omega

theorem delay_eq (ch sr : Nat) (h : sr < 2 ^ 32) : inputDelay ch sr = millisecond sr * ch := by
  rw [inputDelay, delay_frames sr h, Nat.mul_comm]

end LiveHost
end Rawdio
