import Verif.Lemmas.Timestamp

/-!
# Properties of timestamps (C25)
-/

namespace Rawdio
namespace Timestamp

/-- C25: converting samples to a timestamp and back loses at most `rate / 2^33` samples. -/
theorem C25_round_trip_error (n : ℚ) (sr : Nat) (hsr : 0 < sr) :
    |asSamples (fromSamples n sr) sr - n| ≤ sr / 2 ^ 33 := by
  have h := fromSamples_error n sr
  have hp : (0 : ℚ) < sr := by exact_mod_cast hsr
  have e : asSamples (fromSamples n sr) sr - n =
      ((fromSamples n sr : ℚ) - n / sr * one) * (sr / one) := by
    simp only [asSamples, asSeconds, one]
    field_simp
  rw [e, abs_mul, abs_of_pos (div_pos hp one_pos)]
  calc _ ≤ 1 / 2 * ((sr : ℚ) / one) :=
        mul_le_mul_of_nonneg_right h (div_pos hp one_pos).le
    _ = sr / 2 ^ 33 := by simp only [one]; ring

example : (0 : Nat) < 48000 := by decide

/-- C25: below a sample rate of 2^32, rounding to the nearest whole sample recovers the sample
count (including negative counts). -/
theorem C25_round_trip (n : Int) (sr : Nat) (hsr : 0 < sr) (hlt : sr < 2 ^ 32) :
    roundHalfEven (asSamples (fromSamples n sr) sr) = n := by
  apply roundHalfEven_eq_of_abs_lt
  rw [abs_sub_comm]
  refine lt_of_le_of_lt (C25_round_trip_error n sr hsr) ?_
  have : (sr : ℚ) < 2 ^ 32 := by exact_mod_cast hlt
  rw [div_lt_iff₀ (by positivity)]
  norm_num at *
  linarith

example : (0 : Nat) < 192000 ∧ 192000 < 2 ^ 32 := by decide

/-- C25: later samples never have earlier timestamps. -/
theorem C25_from_samples_monotone (sr : Nat) (m n : ℚ) (h : m ≤ n) :
    fromSamples m sr ≤ fromSamples n sr := fromSamples_mono sr h

/-- C25: different whole samples have different timestamps below a rate of 2^32. -/
theorem C25_from_samples_strict (sr : Nat) (hsr : 0 < sr) (hlt : sr < 2 ^ 32) (m n : Int)
    (h : m < n) : fromSamples m sr < fromSamples n sr := by
  rcases lt_or_eq_of_le (fromSamples_mono sr (show (m : ℚ) ≤ n by exact_mod_cast h.le)) with h1 | h1
  · exact h1
  · exfalso
    have a := C25_round_trip m sr hsr hlt
    have b := C25_round_trip n sr hsr hlt
    rw [h1, b] at a
    omega

example : (0 : Nat) < 44100 ∧ 44100 < 2 ^ 32 ∧ (7 : Int) < 8 := by decide

/-- C25: incrementing a timestamp by samples in two steps is the same as in one step up to one
unit, and each single step has an error of at most half a unit: the sum itself is exact. -/
theorem C25_increment_exact_sum (t : Int) (a b sr : Nat) :
    incrementedBySamples (incrementedBySamples t a sr) b sr =
      t + (fromSamples a sr + fromSamples b sr) ∧
    |incrementedBySamples (incrementedBySamples t a sr) b sr -
      incrementedBySamples t (a + b) sr| ≤ 1 := by
  refine ⟨by simp [incrementedBySamples, add_assoc], ?_⟩
  have h1 := fromSamples_error a sr
  have h2 := fromSamples_error b sr
  have h3 := fromSamples_error ((a + b : Nat) : ℚ) sr
  have e : ((a + b : Nat) : ℚ) / sr * one = a / sr * one + b / sr * one := by push_cast; ring
  rw [e] at h3
  rw [abs_le] at *
  simp only [incrementedBySamples]
  have l : ((fromSamples (a : ℚ) sr + fromSamples (b : ℚ) sr -
      fromSamples ((a + b : Nat) : ℚ) sr : Int) : ℚ) < 2 := by push_cast at *; linarith
  have l2 : (-2 : ℚ) < ((fromSamples (a : ℚ) sr + fromSamples (b : ℚ) sr -
      fromSamples ((a + b : Nat) : ℚ) sr : Int) : ℚ) := by push_cast at *; linarith
  have l' : fromSamples (a : ℚ) sr + fromSamples (b : ℚ) sr -
      fromSamples ((a + b : Nat) : ℚ) sr < 2 := by exact_mod_cast l
  have l2' : -2 < fromSamples (a : ℚ) sr + fromSamples (b : ℚ) sr -
      fromSamples ((a + b : Nat) : ℚ) sr := by exact_mod_cast l2
  push_cast at *
  constructor <;> omega

/-- C25: a timestamp made from beats is within half a unit of the exact time, and converting back
gives the beats up to `tempo / (60 * 2^33)`. -/
theorem C25_beats_round_trip (beats tempo : ℚ) (ht : 0 < tempo) :
    |asBeats (fromBeats beats tempo) tempo - beats| ≤ tempo / 60 / 2 ^ 33 := by
  have h := fromSeconds_error (beats / (tempo / 60))
  have e : asBeats (fromBeats beats tempo) tempo - beats =
      ((fromSeconds (beats / (tempo / 60)) : ℚ) - beats / (tempo / 60) * one) *
        (tempo / 60 / one) := by
    simp only [asBeats, asSeconds, fromBeats, one]
    field_simp
  have hp : 0 < tempo / 60 / one := by have := one_pos; positivity
  rw [e, abs_mul, abs_of_pos hp]
  calc _ ≤ 1 / 2 * (tempo / 60 / one) := mul_le_mul_of_nonneg_right h hp.le
    _ = tempo / 60 / 2 ^ 33 := by simp only [one]; ring

example : (0 : ℚ) < 120 := by norm_num

/-- C25: moving a timestamp by samples, seconds or beats moves it by that time up to half a unit of `2^-32` s. -/
theorem C25_increment_error (t : Int) (n sr : Nat) (s beats tempo : ℚ) :
    |asSeconds (incrementedBySamples t n sr) - (asSeconds t + n / sr)| ≤ 1 / 2 ^ 33 ∧
    |asSeconds (incrementedBySeconds t s) - (asSeconds t + s)| ≤ 1 / 2 ^ 33 ∧
    |asSeconds (incrementedByBeats t beats tempo) - (asSeconds t + beats / (tempo / 60))| ≤ 1 / 2 ^ 33 := by
  have key : ∀ x : ℚ, |asSeconds (t + roundHalfEven (x * one)) - (asSeconds t + x)| ≤ 1 / 2 ^ 33 := by
    intro x
    have h := roundHalfEven_error (x * one)
    have e : asSeconds (t + roundHalfEven (x * one)) - (asSeconds t + x) =
        ((roundHalfEven (x * one) : ℚ) - x * one) / one := by
      simp only [asSeconds, one]
      push_cast
      ring
    rw [e, abs_div, abs_of_pos one_pos, div_le_iff₀ one_pos]
    refine h.trans (le_of_eq ?_)
    norm_num [one]
  exact ⟨key _, key _, key _⟩

end Timestamp
end Rawdio
