import Mathlib.Tactic.NormNum
import Mathlib.Tactic.Linarith
import Verif.Model.Level

/-! # Properties of levels (C56) -/

namespace Rawdio
namespace Level

/-- The level of -128 dB. -/
noncomputable def smallest : ℝ := (10 : ℝ) ^ (-(32 / 5) : ℝ)

theorem smallest_gt : (1 : ℝ) / 10 ^ 9 < smallest := by
  have : (1 : ℝ) / 10 ^ 9 = (10 : ℝ) ^ (-9 : ℝ) := by
    rw [Real.rpow_neg (by norm_num)]
    norm_num
  rw [this]
  exact Real.rpow_lt_rpow_of_exponent_lt (by norm_num) (by norm_num)

theorem smallest_pos : 0 < smallest := Real.rpow_pos_of_pos (by norm_num) _

theorem asDb_eq {x : ℝ} (h : 1 / 10 ^ 9 < x) : asDb ⟨x⟩ = 20 * Real.logb 10 x := by
  unfold asDb
  rw [if_neg (not_le.mpr h)]

theorem asDb_smallest {x : ℝ} (h : 0 < x) : -128 < 20 * Real.logb 10 x ↔ smallest < x := by
  have hb : Real.logb 10 smallest = -(32 / 5) := Real.logb_rpow (by norm_num) (by norm_num)
  rw [← Real.logb_lt_logb_iff (b := 10) (by norm_num) smallest_pos h, hb]
  constructor <;> intro h <;> linarith

/-- C56: converting decibels to a level and back is the identity from -128 dB up, and gives -128 dB below. -/
theorem C56_db_round_trip (db : ℝ) : (fromDb db).asDb = max db (-128) := by
  unfold fromDb minusInfinityDecibels
  split
  · rename_i h
    rw [max_eq_right h]
    unfold asDb minusInfinityDecibels
    rw [if_pos (by positivity)]
  · rename_i h
    have h := not_le.mp h
    rw [max_eq_left h.le]
    have hp : (0 : ℝ) < 10 ^ (db / 20) := Real.rpow_pos_of_pos (by norm_num) _
    have hl : Real.logb 10 ((10 : ℝ) ^ (db / 20)) = db / 20 := Real.logb_rpow (by norm_num) (by norm_num)
    rw [asDb_eq, hl]
    · ring
    · apply smallest_gt.trans
      rw [← asDb_smallest hp, hl]
      linarith

example : (fromDb (-6)).asDb = -6 := by rw [C56_db_round_trip]; norm_num
example : (fromDb (-200)).asDb = -128 := by rw [C56_db_round_trip]; norm_num

/-- The levels that have a decibel value of their own. -/
def Representable (l : Level) : Prop := l.linear = 0 ∨ smallest < l.linear

/-- C56, for levels above -128 dB and for silence: converting a level to decibels and back is the identity.
Missing for the full claim: positive levels up to -128 dB. -/
theorem C56_round_trip_partial (l : Level) (h : l.Representable) : fromDb l.asDb = l := by
  obtain ⟨x⟩ := l
  rcases h with h | h
  · simp only at h
    subst h
    unfold asDb fromDb
    rw [if_pos (show (0 : ℝ) ≤ 1 / 10 ^ 9 by positivity), if_pos (le_refl _)]
  · simp only at h
    have hp : 0 < x := smallest_pos.trans h
    rw [asDb_eq (smallest_gt.trans h)]
    unfold fromDb minusInfinityDecibels
    rw [if_neg (not_le.mpr ((asDb_smallest hp).mpr h))]
    congr 1
    rw [mul_div_cancel_left₀ _ (by norm_num : (20 : ℝ) ≠ 0)]
    exact Real.rpow_logb (by norm_num) (by norm_num) hp

example : (⟨1 / 2⟩ : Level).Representable := by
  right
  show smallest < 1 / 2
  calc smallest < (10 : ℝ) ^ (-1 : ℝ) := Real.rpow_lt_rpow_of_exponent_lt (by norm_num) (by norm_num)
    _ < 1 / 2 := by rw [Real.rpow_neg_one]; norm_num

/-- C56: positive levels up to -128 dB become silence. -/
theorem C56_quiet_lost (l : Level) (h0 : 0 < l.linear) (h1 : l.linear ≤ smallest) : fromDb l.asDb = ⟨0⟩ := by
  obtain ⟨x⟩ := l
  simp only at h0 h1
  unfold fromDb minusInfinityDecibels
  rw [if_pos]
  by_cases h : x ≤ 1 / 10 ^ 9
  · unfold asDb minusInfinityDecibels
    rw [if_pos h]
  · rw [asDb_eq (not_le.mp h)]
    exact not_lt.mp (fun hc => absurd ((asDb_smallest h0).mp hc) (not_lt.mpr h1))

/-- `10^-8`, a level of -160 dB. -/
noncomputable def veryQuiet : Level := ⟨(10 : ℝ) ^ (-8 : ℝ)⟩

theorem veryQuiet_db : veryQuiet.asDb = -160 := by
  unfold veryQuiet
  rw [asDb_eq]
  · rw [Real.logb_rpow (by norm_num) (by norm_num)]
    norm_num
  · have : (1 : ℝ) / 10 ^ 9 = (10 : ℝ) ^ (-9 : ℝ) := by
      rw [Real.rpow_neg (by norm_num)]
      norm_num
    rw [this]
    exact Real.rpow_lt_rpow_of_exponent_lt (by norm_num) (by norm_num)

/-- C56 as claimed: levels survive the conversion to decibels and back. -/
def RoundTrips : Prop := ∀ l : Level, 0 ≤ l.linear → fromDb l.asDb = l

/-- C56 fails: a level of `10^-8` comes back as silence. -/
theorem C56_round_trip_violated : ¬ RoundTrips := by
  intro h
  have hpos : 0 < veryQuiet.linear := Real.rpow_pos_of_pos (by norm_num) _
  have h1 := h veryQuiet hpos.le
  rw [C56_quiet_lost veryQuiet hpos
    (Real.rpow_le_rpow_of_exponent_le (by norm_num) (by norm_num))] at h1
  have h2 : (0 : ℝ) = veryQuiet.linear := congrArg Level.linear h1
  linarith

/-- C56 as claimed: a louder level has a higher decibel value. -/
def Monotone : Prop := ∀ l m : Level, 0 ≤ l.linear → l.linear ≤ m.linear → l.asDb ≤ m.asDb

/-- C56 fails: silence is -128 dB, louder than a level of `10^-8` at -160 dB. -/
theorem C56_monotone_violated : ¬ Monotone := by
  intro h
  have hpos : 0 < veryQuiet.linear := Real.rpow_pos_of_pos (by norm_num) _
  have h1 := h ⟨0⟩ veryQuiet (le_refl _) hpos.le
  rw [veryQuiet_db] at h1
  unfold asDb minusInfinityDecibels at h1
  rw [if_pos (show (0 : ℝ) ≤ 1 / 10 ^ 9 by positivity)] at h1
  linarith

/-- C56, for levels above -128 dB and for silence: a level is louder than another if and only if its decibel
value is higher. Missing for the full claim: positive levels up to -128 dB. -/
theorem C56_monotone_partial (l m : Level) (hl : l.Representable) (hm : m.Representable) :
    l.asDb < m.asDb ↔ l.linear < m.linear := by
  obtain ⟨x⟩ := l
  obtain ⟨y⟩ := m
  have h0 : asDb ⟨0⟩ = -128 := by
    unfold asDb minusInfinityDecibels
    rw [if_pos (show (0 : ℝ) ≤ 1 / 10 ^ 9 by positivity)]
  have hs := smallest_pos
  rcases hl with hl | hl <;> rcases hm with hm | hm <;> simp only at hl hm ⊢
  · rw [hl, hm]
    simp
  · rw [hl, h0, asDb_eq (smallest_gt.trans hm), asDb_smallest (hs.trans hm)]
    exact ⟨fun _ => hs.trans hm, fun _ => hm⟩
  · rw [hm, h0, asDb_eq (smallest_gt.trans hl)]
    have := (asDb_smallest (hs.trans hl)).mpr hl
    constructor <;> intro h <;> linarith
  · rw [asDb_eq (smallest_gt.trans hl), asDb_eq (smallest_gt.trans hm),
      ← Real.logb_lt_logb_iff (b := 10) (by norm_num) (hs.trans hl) (hs.trans hm)]
    constructor <;> intro h <;> linarith

example : (⟨0⟩ : Level).Representable := Or.inl rfl

/-- C56: with bounds in order, clamping gives the level within the bounds that is nearest to the given one, so a level
that is within them is not changed. -/
theorem C56_clamp (l lo hi : Level) (h : lo.linear ≤ hi.linear) :
    ∃ m : Level, l.clamp lo hi = .ok m ∧ lo.linear ≤ m.linear ∧ m.linear ≤ hi.linear ∧
      ∀ x : ℝ, lo.linear ≤ x → x ≤ hi.linear → |m.linear - l.linear| ≤ |x - l.linear| := by
  refine ⟨⟨max lo.linear (min l.linear hi.linear)⟩, by rw [clamp, if_pos h], le_max_left _ _,
    max_le h (min_le_right _ _), ?_⟩
  intro x h1 h2
  show |max lo.linear (min l.linear hi.linear) - l.linear| ≤ _
  rcases le_total l.linear hi.linear with a | a
  · rw [min_eq_left a]
    rcases le_total lo.linear l.linear with b | b
    · rw [max_eq_right b, sub_self, abs_zero]
      exact abs_nonneg _
    · rw [max_eq_left b, abs_of_nonneg (by linarith), abs_of_nonneg (by linarith)]
      linarith
  · rw [min_eq_right a, max_eq_right h, abs_of_nonpos (by linarith), abs_of_nonpos (by linarith)]
    linarith

example : (⟨0⟩ : Level).linear ≤ (⟨1⟩ : Level).linear := zero_le_one

end Level
end Rawdio
