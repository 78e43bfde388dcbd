import Verif.Lemmas.Float

/-!
# Time conversions in `f64` (C77)
-/

namespace Rawdio
namespace Timestamp

/-- C77: with the rounding of `f64`, for every sample rate of at most 2^19 and every sample within 2^31 - 1 seconds of
zero, the timestamp of a whole number of samples fits its 64 bits, and converting back and rounding recovers the
number. -/
theorem C77_round_trip (n : Int) (sr : Nat) (hsr : 0 < sr) (hle : sr ≤ 2 ^ 19) (hn : |n| ≤ (2 ^ 31 - 1) * sr) :
    -2 ^ 63 ≤ fromSamplesFloat n sr ∧ fromSamplesFloat n sr < 2 ^ 63 ∧
      |asSamplesFloat (fromSamplesFloat n sr) sr - n| < 1 / 2 ∧
      roundHalfEven (asSamplesFloat (fromSamplesFloat n sr) sr) = n := by
  have hp : (0 : ℚ) < sr := by exact_mod_cast hsr
  have hs : (sr : ℚ) ≤ 2 ^ 19 := by exact_mod_cast hle
  have hn' : |(n : ℚ)| ≤ (2 ^ 31 - 1) * sr := by exact_mod_cast hn
  have hx : |(n : ℚ) / sr| ≤ 2 ^ 31 - 1 := by
    rw [abs_div, abs_of_pos hp, div_le_iff₀ hp]
    exact hn'
  have ha := fromSamplesFloat_error ((n : ℚ) / sr) (hx.trans (by norm_num))
  obtain ⟨t, ht⟩ : ∃ t, t = fromSamplesFloat (n : ℚ) sr := ⟨_, rfl⟩
  have ht' : roundHalfEven (Float64.round ((n : ℚ) / sr) * one) = t := ht.symm
  rw [ht'] at ha
  rw [← ht]
  have htb : |(t : ℚ) / one| ≤ 2 ^ 31 - 1 / 2 := by
    have := abs_add_le ((t : ℚ) / one - (n : ℚ) / sr) ((n : ℚ) / sr)
    rw [sub_add_cancel] at this
    have c : (1 : ℚ) / 2 ^ 22 + 1 / 2 ^ 60 + 1 / 2 ^ 33 ≤ 1 / 2 := by norm_num
    linarith
  have htr : |(t : ℚ)| < 2 ^ 63 := by
    rw [abs_div, abs_of_pos one_pos, div_le_iff₀ one_pos] at htb
    refine lt_of_le_of_lt htb ?_
    norm_num [one]
  have hti : |t| < 2 ^ 63 := by exact_mod_cast htr
  have hb := Float64.round_error_of_le htb
  obtain ⟨s, hs'⟩ : ∃ s, s = Float64.round ((t : ℚ) / one) := ⟨_, rfl⟩
  rw [← hs'] at hb
  -- the product before its rounding
  have hd : |s - (n : ℚ) / sr| ≤ 1 / 2 ^ 21 + 1 / 2 ^ 32 := by
    have := abs_add_le (s - (t : ℚ) / one) ((t : ℚ) / one - (n : ℚ) / sr)
    rw [sub_add_sub_cancel] at this
    have c : ((2 : ℚ) ^ 31 - 1 / 2) / 2 ^ 53 + 1 / 2 ^ 60 + (1 / 2 ^ 22 + 1 / 2 ^ 60 + 1 / 2 ^ 33) ≤
        1 / 2 ^ 21 + 1 / 2 ^ 32 := by norm_num
    linarith
  have he : |s * sr - n| ≤ 1 / 4 + 1 / 2 ^ 13 := by
    have e : s * sr - n = (s - (n : ℚ) / sr) * sr := by field_simp
    rw [e, abs_mul, abs_of_pos hp]
    have := mul_le_mul hd hs hp.le (by positivity)
    refine this.trans (le_of_eq ?_)
    norm_num
  have hm : |s * sr| ≤ 2 ^ 50 := by
    have := abs_add_le (s * sr - n) (n : ℚ)
    rw [sub_add_cancel] at this
    have c : |(n : ℚ)| ≤ (2 ^ 31 - 1) * 2 ^ 19 := hn'.trans (mul_le_mul_of_nonneg_left hs (by norm_num))
    refine this.trans ((add_le_add he c).trans ?_)
    norm_num
  have hf := Float64.round_error_of_le hm
  have hr : |asSamplesFloat t sr - n| < 1 / 2 := by
    have e : asSamplesFloat t sr = Float64.round (s * sr) := by rw [asSamplesFloat, ← hs']
    rw [e]
    have := abs_add_le (Float64.round (s * sr) - s * sr) (s * sr - n)
    rw [sub_add_sub_cancel] at this
    refine lt_of_le_of_lt (this.trans (add_le_add hf he)) ?_
    norm_num
  refine ⟨(abs_lt.mp hti).1.le, (abs_lt.mp hti).2, hr, ?_⟩
  apply roundHalfEven_eq_of_abs_lt
  rw [abs_sub_comm]
  exact hr

example : 0 < 384000 ∧ 384000 ≤ 2 ^ 19 ∧ |(-384000 * 60 * 60 * 24 * 365 : Int)| ≤ (2 ^ 31 - 1) * (384000 : Nat) := by
  norm_num

/-- C77: with the rounding of `f64`, later samples have later timestamps. -/
theorem C77_strict (m n : Int) (sr : Nat) (hsr : 0 < sr) (hle : sr ≤ 2 ^ 19) (hm : |m| ≤ (2 ^ 31 - 1) * sr)
    (hn : |n| ≤ (2 ^ 31 - 1) * sr) (h : m < n) : fromSamplesFloat m sr < fromSamplesFloat n sr := by
  have hp : (0 : ℚ) < sr := by exact_mod_cast hsr
  have hs : (sr : ℚ) ≤ 2 ^ 19 := by exact_mod_cast hle
  have key : ∀ k : Int, |k| ≤ (2 ^ 31 - 1) * sr →
      |(fromSamplesFloat k sr : ℚ) / one - (k : ℚ) / sr| ≤ 1 / 2 ^ 22 + 1 / 2 ^ 60 + 1 / 2 ^ 33 := by
    intro k hk
    refine fromSamplesFloat_error ((k : ℚ) / sr) ?_
    have hk' : |(k : ℚ)| ≤ (2 ^ 31 - 1) * sr := by exact_mod_cast hk
    rw [abs_div, abs_of_pos hp, div_le_iff₀ hp]
    refine hk'.trans (mul_le_mul_of_nonneg_right (by norm_num) hp.le)
  have a := abs_le.mp (key m hm)
  have b := abs_le.mp (key n hn)
  have c : (m : ℚ) / sr + 1 / sr ≤ (n : ℚ) / sr := by
    rw [← add_div]
    refine div_le_div_of_nonneg_right ?_ hp.le
    exact_mod_cast h
  have d : (1 : ℚ) / 2 ^ 19 ≤ 1 / sr := one_div_le_one_div_of_le hp hs
  have e : (fromSamplesFloat m sr : ℚ) / one < (fromSamplesFloat n sr : ℚ) / one := by
    have : 2 * ((1 : ℚ) / 2 ^ 22 + 1 / 2 ^ 60 + 1 / 2 ^ 33) < 1 / 2 ^ 19 := by norm_num
    linarith [a.2, b.1]
  have := (div_lt_div_iff_of_pos_right one_pos).mp e
  exact_mod_cast this

example : |(7 : Int)| ≤ (2 ^ 31 - 1) * (44100 : Nat) ∧ (7 : Int) < 8 := by norm_num

/-- C77: with the rounding of `f64`, the clock of the engine, converted to samples and rounded, is the number of frames
rendered, for 68 years. -/
theorem C77_clock (frames sr : Nat) (hsr : 0 < sr) (hle : sr ≤ 2 ^ 19) (hn : frames ≤ (2 ^ 31 - 1) * sr) :
    roundHalfEven (asSamplesFloat (clockFloat frames sr) sr) = frames := by
  have h := (C77_round_trip frames sr hsr hle (by
    rw [abs_of_nonneg (by positivity)]
    zify at hn
    norm_num at hn ⊢
    exact hn)).2.2.2
  have e : clockFloat frames sr = fromSamplesFloat ((frames : Int) : ℚ) sr := by
    simp [clockFloat, fromSamplesFloat]
  rw [e]
  exact h

example : 48000 * 3600 ≤ (2 ^ 31 - 1) * 48000 := by norm_num

end Timestamp
end Rawdio
