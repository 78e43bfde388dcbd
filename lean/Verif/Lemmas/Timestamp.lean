import Mathlib.RingTheory.Coprime.Lemmas
import Mathlib.Tactic.Linarith
import Mathlib.Tactic.Ring
import Mathlib.Tactic.FieldSimp
import Mathlib.Tactic.Positivity
import Mathlib.Tactic.NormNum
import Verif.Model.Timestamp

/-! Helper lemmas about rounding to a timestamp. -/

namespace Rawdio
namespace Timestamp

theorem one_pos : 0 < one := by norm_num [one]

/-- Rounding is within half a unit. -/
theorem roundHalfEven_error (x : ℚ) : |(roundHalfEven x : ℚ) - x| ≤ 1 / 2 := by
  have h1 := Int.floor_le x
  have h2 := Int.lt_floor_add_one x
  unfold roundHalfEven
  simp only
  rw [abs_le]
  split_ifs with ha hb hc
  · constructor <;> linarith
  · push_cast; constructor <;> linarith
  · have : x - ⌊x⌋ = 1 / 2 := le_antisymm (not_lt.mp hb) (not_lt.mp ha)
    constructor <;> linarith
  · have : x - ⌊x⌋ = 1 / 2 := le_antisymm (not_lt.mp hb) (not_lt.mp ha)
    push_cast; constructor <;> linarith

theorem roundHalfEven_int (n : Int) : roundHalfEven (n : ℚ) = n := by
  simp [roundHalfEven]

theorem floor_le_roundHalfEven (x : ℚ) : ⌊x⌋ ≤ roundHalfEven x := by
  unfold roundHalfEven; simp only; split_ifs <;> omega

theorem roundHalfEven_le_floor_add_one (x : ℚ) : roundHalfEven x ≤ ⌊x⌋ + 1 := by
  unfold roundHalfEven; simp only; split_ifs <;> omega

theorem roundHalfEven_mono {x y : ℚ} (h : x ≤ y) : roundHalfEven x ≤ roundHalfEven y := by
  have hf : ⌊x⌋ ≤ ⌊y⌋ := Int.floor_mono h
  rcases lt_or_eq_of_le hf with hlt | heq
  · have := roundHalfEven_le_floor_add_one x
    have := floor_le_roundHalfEven y
    omega
  · unfold roundHalfEven
    simp only
    rw [heq]
    split_ifs <;> first | omega | (exfalso; linarith)

theorem roundHalfEven_add_int (x : ℚ) (n : Int) (hn : n % 2 = 0) :
    roundHalfEven (x + n) = roundHalfEven x + n := by
  unfold roundHalfEven
  simp only [Int.floor_add_intCast]
  have : x + n - ((⌊x⌋ + n : Int) : ℚ) = x - ⌊x⌋ := by push_cast; ring
  rw [this]
  split_ifs <;> omega

/-- An integer nearer than half a unit is the rounded value. -/
theorem roundHalfEven_eq_of_abs_lt {x : ℚ} {n : Int} (h : |(n : ℚ) - x| < 1 / 2) :
    roundHalfEven x = n := by
  have h1 := roundHalfEven_error x
  rw [abs_le] at h1
  rw [abs_lt] at h
  have a1 : ((roundHalfEven x - n : Int) : ℚ) < 1 := by push_cast; linarith
  have a2 : (-1 : ℚ) < ((roundHalfEven x - n : Int) : ℚ) := by push_cast; linarith
  have b1 : roundHalfEven x - n < 1 := by exact_mod_cast a1
  have b2 : -1 < roundHalfEven x - n := by exact_mod_cast a2
  omega

theorem fromSeconds_mono {a b : ℚ} (h : a ≤ b) : fromSeconds a ≤ fromSeconds b :=
  roundHalfEven_mono (mul_le_mul_of_nonneg_right h one_pos.le)

theorem fromSamples_mono {a b : ℚ} (sr : Nat) (h : a ≤ b) :
    fromSamples a sr ≤ fromSamples b sr :=
  fromSeconds_mono (div_le_div_of_nonneg_right h (Nat.cast_nonneg sr))

theorem fromSeconds_error (s : ℚ) : |(fromSeconds s : ℚ) - s * one| ≤ 1 / 2 :=
  roundHalfEven_error _

theorem fromSamples_error (s : ℚ) (sr : Nat) :
    |(fromSamples s sr : ℚ) - s / sr * one| ≤ 1 / 2 :=
  roundHalfEven_error _

theorem fromSamples_nonneg (n sr : Nat) : 0 ≤ fromSamples n sr := by
  have : fromSamples ((0 : Nat) : ℚ) sr ≤ fromSamples n sr :=
    fromSamples_mono sr (by exact_mod_cast Nat.zero_le n)
  have h0 : fromSamples ((0 : Nat) : ℚ) sr = 0 := by
    have := roundHalfEven_int 0
    simpa [fromSamples, fromSeconds] using this
  omega

theorem fromSamples_zero (sr : Nat) : fromSamples 0 sr = 0 := by
  have := roundHalfEven_int 0
  simpa [fromSamples, fromSeconds] using this

/-- Below a sample rate of 2^33 no whole number of samples is exactly between two timestamps. -/
theorem fromSamples_error_lt (n : Nat) {sr : Nat} (hsr : 0 < sr) (hlt : sr < 2 ^ 33) :
    |(fromSamples (n : ℚ) sr : ℚ) - (n : ℚ) / sr * one| < 1 / 2 := by
  refine lt_of_le_of_ne (fromSamples_error (n : ℚ) sr) ?_
  intro h
  have hp : (sr : ℚ) ≠ 0 := by exact_mod_cast hsr.ne'
  obtain ⟨r, hr⟩ : ∃ r, r = fromSamples (n : ℚ) sr := ⟨_, rfl⟩
  rw [← hr] at h
  have key : ∃ m : Int, (n : Int) * 2 ^ 33 = (2 * m + 1) * sr := by
    rcases abs_eq (by norm_num : (0 : ℚ) ≤ 1 / 2) |>.mp h with h1 | h1
    · refine ⟨r - 1, ?_⟩
      have : (n : ℚ) * 2 ^ 33 = (2 * (r - 1) + 1) * sr := by
        have e : (n : ℚ) / sr * one = r - 1 / 2 := by linarith
        simp only [one] at e
        field_simp at e
        linarith
      exact_mod_cast this
    · refine ⟨r, ?_⟩
      have : (n : ℚ) * 2 ^ 33 = (2 * r + 1) * sr := by
        have e : (n : ℚ) / sr * one = r + 1 / 2 := by linarith
        simp only [one] at e
        field_simp at e
        linarith
      exact_mod_cast this
  obtain ⟨m, hm⟩ := key
  have hc : IsCoprime ((2 : Int) ^ 33) (2 * m + 1) :=
    IsCoprime.pow_left ⟨-m, 1, by ring⟩
  have hd : ((2 : Int) ^ 33) ∣ sr := hc.dvd_of_dvd_mul_left (Dvd.intro_left _ hm)
  have := Int.le_of_dvd (by exact_mod_cast hsr) hd
  have h2 : (2 : Int) ^ 33 ≤ (sr : Int) := this
  have h3 : (sr : Int) < 2 ^ 33 := by exact_mod_cast hlt
  exact absurd h3 (not_lt.mpr h2)

end Timestamp
end Rawdio
