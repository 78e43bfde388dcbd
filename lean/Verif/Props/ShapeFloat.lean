import Verif.Lemmas.ShapeFloat

/-!
# Properties of the lookup of the waveshaper with `f32` samples (C113)
-/

namespace Rawdio
namespace Shape32

open Convert32

/-- C113: for every sample and every table that is not empty the lookup gives the value of the polygon through the points
of the table, at a place `p` that is at most `2^-50 n` from the one of the sample, and with an error that is small where
the table is flat.  Samples beyond full scale give the first or the last point itself. -/
theorem C113_near (x : Sample32) (shape : List Sample32) (h : 0 < shape.length) (hn : shape.length ≤ 2 ^ 20) :
    ∃ (p : ℚ) (a b y : Sample32), shapeSample x shape = .ok y ∧ 0 ≤ p ∧
      (|x.1| ≤ 1 → |p - place x.1 shape.length| ≤ shape.length * (1 / 2 ^ 50)) ∧
      shape[⌊p⌋₊]? = some a ∧ shape[⌈p⌉₊]? = some b ∧
      |y.1 - ((1 - (p - ⌊p⌋₊)) * a.1 + (p - ⌊p⌋₊) * b.1)| ≤
        |b.1 - a.1| * (shape.length * (1 / 2 ^ 22)) + max |a.1| |b.1| * (1 / 2 ^ 21) + 1 / 2 ^ 148 := by
  obtain ⟨a, b, y, e1, e2, e3, e4⟩ := shapeSample_ok x shape h
  have h0 := shapeIndex_nonneg x shape.length
  have h1 := shapeIndex_le x shape.length
  refine ⟨shapeIndex x shape.length, a, b, y, e3, h0, fun hx => shapeIndex_near hx _, e1, e2, ?_⟩
  generalize shapeIndex x shape.length = p at *
  have hX : 0 ≤ max |a.1| |b.1| := (abs_nonneg _).trans (le_max_left ..)
  have hD := abs_nonneg (b.1 - a.1)
  rcases e4 with ⟨he, rfl⟩ | rfl
  · have hp : p - ⌊p⌋₊ = 0 := by
      have k1 := Nat.floor_le h0
      have k2 := Nat.le_ceil p
      rw [← he] at k2
      linarith
    rw [hp, sub_zero, one_mul, zero_mul, add_zero, sub_self, abs_zero]
    positivity
  · obtain ⟨t0, t1, t2⟩ := amountOfAfter_near h0 h1 h hn
    have k := interpolate_given (amountOfAfter p) a b t0 t1
    generalize interpolate (amountOfAfter p) a b = y at *
    generalize (amountOfAfter p).1 = T at *
    generalize p - ⌊p⌋₊ = t at *
    have k2 := abs_add_le (y.1 - ((1 - T) * a.1 + T * b.1)) ((T - t) * (b.1 - a.1))
    rw [show y.1 - ((1 - T) * a.1 + T * b.1) + (T - t) * (b.1 - a.1) = y.1 - ((1 - t) * a.1 + t * b.1) by ring, abs_mul] at k2
    have k3 := mul_le_mul_of_nonneg_right t2 hD
    linarith

/-- C113: samples at full scale and beyond give the ends of the table, to the last digit. -/
theorem C113_ends (x : Sample32) (shape : List Sample32) (h : 0 < shape.length) (hn : shape.length ≤ 2 ^ 20) :
    (1 ≤ x.1 → ∃ y, shapeSample x shape = .ok y ∧ shape.getLast? = some y) ∧
      (x.1 ≤ -1 → ∃ y, shapeSample x shape = .ok y ∧ shape.head? = some y) := by
  obtain ⟨a, b, y, e1, e2, e3, e4⟩ := shapeSample_ok x shape h
  constructor
  · intro hx
    rw [shapeIndex_high hx (by omega)] at e1 e2 e4
    rw [Nat.floor_natCast] at e1
    have hy : y = a := by
      rcases e4 with ⟨_, h⟩ | h
      · exact h
      · rw [Nat.ceil_natCast, e1] at e2
        cases e2
        have ha : amountOfAfter ((shape.length - 1 : Nat) : ℚ) = 0 := Subtype.ext (by
          show Float32.round (_ - _) = 0
          rw [Nat.floor_natCast, sub_self, Float32.round_zero])
        rw [h, ha, interpolate_zero]
    refine ⟨y, e3, ?_⟩
    rw [List.getLast?_eq_getElem?, e1, hy]
  · intro hx
    rw [shapeIndex_low hx] at e1 e2 e4
    rw [Nat.floor_zero] at e1
    have hy : y = a := by
      rcases e4 with ⟨_, h⟩ | h
      · exact h
      · rw [Nat.ceil_zero, e1] at e2
        cases e2
        have ha : amountOfAfter 0 = 0 := Subtype.ext (by
          show Float32.round (_ - _) = 0
          rw [Nat.floor_zero, Nat.cast_zero, sub_self, Float32.round_zero])
        rw [h, ha, interpolate_zero]
    refine ⟨y, e3, ?_⟩
    rw [List.head?_eq_getElem?, e1, hy]

/-- C113: what comes out is at most `2^-21` louder than the loudest point of the table, plus `2^-148`, for every sample
that goes in. -/
theorem C113_bounded (x : Sample32) (shape : List Sample32) (h : 0 < shape.length) (hn : shape.length ≤ 2 ^ 20) (B : ℚ)
    (hB : ∀ v ∈ shape, |v.1| ≤ B) :
    ∃ y, shapeSample x shape = .ok y ∧ |y.1| ≤ B * (1 + 1 / 2 ^ 21) + 1 / 2 ^ 148 := by
  obtain ⟨a, b, y, e1, e2, e3, e4⟩ := shapeSample_ok x shape h
  have ha := hB a (List.mem_of_getElem? e1)
  have hb := hB b (List.mem_of_getElem? e2)
  have hB0 : 0 ≤ B := (abs_nonneg _).trans ha
  have hu : (0 : ℚ) ≤ 1 / 2 ^ 148 := by positivity
  refine ⟨y, e3, ?_⟩
  rcases e4 with ⟨_, rfl⟩ | rfl
  · have : 0 ≤ B * (1 / 2 ^ 21) := by positivity
    linarith
  · obtain ⟨t0, t1, _⟩ := amountOfAfter_near (shapeIndex_nonneg x shape.length) (shapeIndex_le x shape.length) h hn
    have k := interpolate_given (amountOfAfter (shapeIndex x shape.length)) a b t0 t1
    generalize amountOfAfter (shapeIndex x shape.length) = T at *
    have k1 : |(1 - T.1) * a.1 + T.1 * b.1| ≤ B := by
      have := abs_add_le ((1 - T.1) * a.1) (T.1 * b.1)
      rw [abs_mul, abs_mul, abs_of_nonneg t0, abs_of_nonneg (by linarith : 0 ≤ 1 - T.1)] at this
      have m1 := mul_le_mul_of_nonneg_left ha (by linarith : 0 ≤ 1 - T.1)
      have m2 := mul_le_mul_of_nonneg_left hb t0
      linarith
    have k2 := abs_add_le ((1 - T.1) * a.1 + T.1 * b.1) ((interpolate T a b).1 - ((1 - T.1) * a.1 + T.1 * b.1))
    rw [add_sub_cancel] at k2
    have k3 := mul_le_mul_of_nonneg_right (max_le ha hb) (by positivity : (0 : ℚ) ≤ 1 / 2 ^ 21)
    linarith

/-- A table and a sample that meet the hypotheses of `C113_near` and `C113_bounded`, and of `C113_ends` with the sample at
full scale. -/
example : 0 < [(0 : Sample32), 1].length ∧ [(0 : Sample32), 1].length ≤ 2 ^ 20 ∧ (∀ v ∈ [(0 : Sample32), 1], |v.1| ≤ 1) ∧
    1 ≤ (1 : Sample32).1 ∧ shapeSample 1 [0, 1] = .ok 1 := by
  refine ⟨by decide, by decide, by simp [Sample32.zero_val, Sample32.one_val], le_of_eq Sample32.one_val.symm, ?_⟩
  obtain ⟨y, h1, h2⟩ := (C113_ends 1 [0, 1] (by decide) (by decide)).1 (le_of_eq Sample32.one_val.symm)
  rw [h1]
  simpa using h2.symm

end Shape32
end Rawdio
