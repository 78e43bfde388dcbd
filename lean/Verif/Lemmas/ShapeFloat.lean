import Verif.Model.ShapeFloat
import Verif.Spec.ShapeFloat
import Verif.Lemmas.ConvertFloat
import Verif.Lemmas.ParameterFloat

/-! # Lemmas about the lookup of the waveshaper with `f32` samples -/

namespace Rawdio
namespace Shape32

open Convert32

theorem interpolate_given (T a b : Sample32) (h0 : 0 ≤ T.1) (h1 : T.1 ≤ 1) :
    |(interpolate T a b).1 - ((1 - T.1) * a.1 + T.1 * b.1)| ≤ max |a.1| |b.1| * (1 / 2 ^ 21) + 1 / 2 ^ 148 := by
  have hX : 0 ≤ max |a.1| |b.1| := (abs_nonneg _).trans (le_max_left ..)
  rcases lt_or_eq_of_le h1 with h | h
  · have hf : ⌊T.1⌋₊ = 0 := Nat.floor_eq_zero.mpr h
    have ha : amount T.1 = T := Subtype.ext (by
      show Float32.round (T.1 - ⌊T.1⌋₊) = T.1
      rw [hf, Nat.cast_zero, sub_zero, Sample32.round_of_rep T.2])
    have := interpolate_near h0 a b
    rw [ha, hf, Nat.cast_zero, sub_zero] at this
    exact this
  · have hT : T = 1 := Subtype.ext h
    have h2 : oneMinus 1 = 0 := Subtype.ext (by
      show Float32.round (1 - 1) = 0
      rw [sub_self, Float32.round_zero])
    rw [hT, interpolate, h2, zero_mul, one_mul, zero_add, Sample32.one_val, sub_self, zero_mul, one_mul, zero_add, sub_self,
      abs_zero]
    positivity

theorem interpolate_zero (a b : Sample32) : interpolate 0 a b = a := by
  have h : amount ((0 : Nat) : ℚ) = 0 := Subtype.ext (by
    show Float32.round (((0 : Nat) : ℚ) - ⌊((0 : Nat) : ℚ)⌋₊) = 0
    rw [Nat.floor_natCast, sub_self, Float32.round_zero])
  rw [← h, interpolate_whole]

theorem shapeIndex_nonneg (x : Sample32) (n : Nat) : 0 ≤ shapeIndex x n := le_max_left ..

theorem shapeIndex_le (x : Sample32) (n : Nat) : shapeIndex x n ≤ ((n - 1 : Nat) : ℚ) :=
  max_le (Nat.cast_nonneg _) (min_le_right ..)

theorem round64_nonpos {x : ℚ} (h : x ≤ 0) : Float64.round x ≤ 0 := by
  have := Float64.round_nonneg (x := -x) (by linarith)
  rw [Float32.round64_neg] at this
  linarith

/-- Full scale and beyond. -/
theorem shapeIndex_high {x : Sample32} (h : 1 ≤ x.1) {n : Nat} (hn : n < 2 ^ 53) : shapeIndex x n = ((n - 1 : Nat) : ℚ) := by
  unfold shapeIndex
  have h1 : (2 : ℚ) ≤ Float64.round (x.1 + 1) := by
    have := Float64.rep_int 2 (by norm_num)
    exact Float64.le_round (by norm_num) (by exact_mod_cast this) (by linarith)
  have h2 : (1 : ℚ) ≤ Float64.round (Float64.round (x.1 + 1) / 2) := by
    have := Float64.rep_int 1 (by norm_num)
    exact Float64.le_round (by norm_num) (by exact_mod_cast this) (by linarith)
  have h3 : ((n - 1 : Nat) : ℚ) ≤ Float64.round (Float64.round (Float64.round (x.1 + 1) / 2) * ((n - 1 : Nat) : ℚ)) := by
    have := Float64.rep_int ((n - 1 : Nat) : ℤ) (by rw [abs_of_nonneg (by positivity)]; exact_mod_cast (by omega : n - 1 < 2 ^ 53))
    exact Float64.le_round (by positivity) (by exact_mod_cast this) (le_mul_of_one_le_left (by positivity) h2)
  simp only [min_eq_right h3]
  exact max_eq_right (by positivity)

theorem shapeIndex_low {x : Sample32} (h : x.1 ≤ -1) (n : Nat) : shapeIndex x n = 0 := by
  unfold shapeIndex
  have h1 : Float64.round (x.1 + 1) ≤ 0 := round64_nonpos (by linarith)
  have h2 : Float64.round (Float64.round (x.1 + 1) / 2) ≤ 0 := round64_nonpos (by linarith)
  have h3 : Float64.round (Float64.round (Float64.round (x.1 + 1) / 2) * ((n - 1 : Nat) : ℚ)) ≤ 0 :=
    round64_nonpos (mul_nonpos_of_nonpos_of_nonneg h2 (by positivity))
  exact max_eq_left ((min_le_left ..).trans h3)

theorem tiny64 : (1 : ℚ) / 2 ^ 1075 ≤ 1 / 2 ^ 60 :=
  one_div_le_one_div_of_le (by positivity) (pow_le_pow_right₀ (by norm_num) (by norm_num))

/-- How close the index is. -/
theorem shapeIndex_near {x : Sample32} (h : |x.1| ≤ 1) (n : Nat) : |shapeIndex x n - place x.1 n| ≤ n * (1 / 2 ^ 50) := by
  obtain ⟨hl, hh⟩ := abs_le.mp h
  unfold shapeIndex place
  simp only
  have hn : ((n - 1 : Nat) : ℚ) ≤ n := by exact_mod_cast Nat.sub_le ..
  have hn0 : (0 : ℚ) ≤ ((n - 1 : Nat) : ℚ) := Nat.cast_nonneg _
  rcases Nat.eq_zero_or_pos (n - 1) with h0 | h0
  · rw [h0]
    simp [Float32.round64_zero]
  have hn1 : (1 : ℚ) ≤ ((n - 1 : Nat) : ℚ) := by exact_mod_cast h0
  generalize ((n - 1 : Nat) : ℚ) = N at *
  have hu := tiny64
  have hu0 : (0 : ℚ) ≤ 1 / 2 ^ 1075 := by positivity
  have r1 := Float64.round_rel (x.1 + 1)
  rw [abs_of_nonneg (by linarith : 0 ≤ x.1 + 1)] at r1
  generalize Float64.round (x.1 + 1) = a at *
  have r2 := Float64.round_rel (a / 2)
  generalize x.1 = y at *
  have ha1 := abs_le.mp r1
  have ha : |a / 2| ≤ 2 := by
    rw [abs_le]
    generalize (1 : ℚ) / 2 ^ 1075 = u at *
    norm_num at ha1
    constructor <;> linarith [ha1.1, ha1.2]
  generalize Float64.round (a / 2) = b at *
  have r3 := Float64.round_rel (b * N)
  have hb : |b - (y + 1) / 2| ≤ 1 / 2 ^ 51 := by
    have h2 : |a / 2 - (y + 1) / 2| ≤ 1 / 2 ^ 53 + 1 / 2 ^ 60 := by
      rw [← sub_div, abs_div, abs_of_pos (by norm_num : (0 : ℚ) < 2)]
      generalize (1 : ℚ) / 2 ^ 1075 = u at *
      norm_num at *
      linarith
    have h3 := abs_sub_le b (a / 2) ((y + 1) / 2)
    have h5 : |a / 2| ≤ 1 + 1 / 2 ^ 10 := by
      have := abs_add_le ((y + 1) / 2) (a / 2 - (y + 1) / 2)
      rw [add_sub_cancel, abs_of_nonneg (by linarith : 0 ≤ (y + 1) / 2)] at this
      norm_num at *
      linarith
    have h4 := mul_le_mul_of_nonneg_right h5 (by positivity : (0 : ℚ) ≤ 1 / 2 ^ 53)
    generalize (1 : ℚ) / 2 ^ 1075 = u at *
    norm_num at *
    linarith
  have hb2 : |b| ≤ 2 := by
    have := abs_add_le ((y + 1) / 2) (b - (y + 1) / 2)
    rw [add_sub_cancel, abs_of_nonneg (by linarith : 0 ≤ (y + 1) / 2)] at this
    norm_num at *
    linarith
  have hc : |Float64.round (b * N) - (y + 1) / 2 * N| ≤ N * (1 / 2 ^ 50) := by
    have h3 := abs_sub_le (Float64.round (b * N)) (b * N) ((y + 1) / 2 * N)
    rw [← sub_mul, abs_mul (b - _), abs_of_nonneg hn0] at h3
    rw [abs_mul, abs_of_nonneg hn0] at r3
    have h4 := mul_le_mul_of_nonneg_right hb hn0
    have hb3 : |b| ≤ 1 + 1 / 2 ^ 10 := by
      have := abs_add_le ((y + 1) / 2) (b - (y + 1) / 2)
      rw [add_sub_cancel, abs_of_nonneg (by linarith : 0 ≤ (y + 1) / 2)] at this
      norm_num at *
      linarith
    have h5 := mul_le_mul_of_nonneg_right (mul_le_mul_of_nonneg_right hb3 hn0) (by positivity : (0 : ℚ) ≤ 1 / 2 ^ 53)
    generalize (1 : ℚ) / 2 ^ 1075 = u at *
    norm_num at *
    linarith
  generalize Float64.round (b * N) = r at *
  have hp0 : 0 ≤ (y + 1) / 2 * N := mul_nonneg (by linarith) hn0
  have hp1 : (y + 1) / 2 * N ≤ N := mul_le_of_le_one_left hn0 (by linarith)
  generalize (y + 1) / 2 * N = p at *
  have hfin : |max 0 (min r N) - p| ≤ |r - p| := by
    rcases le_total r 0 with h1 | h1
    · rw [max_eq_left ((min_le_left ..).trans h1), zero_sub, abs_neg, abs_of_nonneg hp0, abs_of_nonpos (by linarith)]
      linarith
    · rcases le_total r N with h2 | h2
      · rw [min_eq_left h2, max_eq_right h1]
      · rw [min_eq_right h2, max_eq_right hn0, abs_of_nonneg (by linarith), abs_of_nonneg (by linarith)]
        linarith
  have := mul_le_mul_of_nonneg_right hn (by positivity : (0 : ℚ) ≤ 1 / 2 ^ 50)
  linarith

/-- The amount of the later point. -/
theorem amountOfAfter_near {p : ℚ} {n : Nat} (h0 : 0 ≤ p) (hp : p ≤ ((n - 1 : Nat) : ℚ)) (h1 : 1 ≤ n) (hn : n ≤ 2 ^ 20) :
    0 ≤ (amountOfAfter p).1 ∧ (amountOfAfter p).1 ≤ 1 ∧ |(amountOfAfter p).1 - (p - ⌊p⌋₊)| ≤ n * (1 / 2 ^ 22) := by
  have hval : (amountOfAfter p).1 = Float32.round (Float32.round p - Float32.round ⌊p⌋₊) := rfl
  have hfl : ⌊p⌋₊ ≤ n - 1 := by
    have := Nat.floor_le_floor hp
    rwa [Nat.floor_natCast] at this
  have hm : Float32.round ((⌊p⌋₊ : Nat) : ℚ) = (⌊p⌋₊ : Nat) := round_nat (by omega)
  have hm1 : Float32.round ((⌊p⌋₊ + 1 : Nat) : ℚ) = (⌊p⌋₊ + 1 : Nat) := round_nat (by omega)
  have f1 := Nat.floor_le h0
  have f2 := Nat.lt_floor_add_one p
  have g1 : (⌊p⌋₊ : ℚ) ≤ Float32.round p := by
    have := Float32.round_mono (Nat.cast_nonneg _) f1
    rwa [hm] at this
  have g2 : Float32.round p ≤ ⌊p⌋₊ + 1 := by
    have := Float32.round_mono h0 (y := ((⌊p⌋₊ + 1 : Nat) : ℚ)) (by push_cast; exact f2.le)
    rw [hm1] at this
    push_cast at this
    exact this
  rw [hval, hm]
  have d0 : 0 ≤ Float32.round p - ⌊p⌋₊ := by linarith
  have d1 : Float32.round p - ⌊p⌋₊ ≤ 1 := by linarith
  refine ⟨Float32.round_nonneg d0, Float32.round_le d0 (1 : Sample32).2 d1, ?_⟩
  have r1 := Float32.round_rel p
  have r2 := Float32.round_rel (Float32.round p - ⌊p⌋₊)
  rw [abs_of_nonneg d0] at r2
  rw [abs_of_nonneg h0] at r1
  have h3 := abs_add_le (Float32.round (Float32.round p - ⌊p⌋₊) - (Float32.round p - ⌊p⌋₊)) (Float32.round p - p)
  rw [show Float32.round (Float32.round p - ⌊p⌋₊) - (Float32.round p - ⌊p⌋₊) + (Float32.round p - p) =
    Float32.round (Float32.round p - ⌊p⌋₊) - (p - ⌊p⌋₊) by ring] at h3
  have hpn : p ≤ n := hp.trans (by exact_mod_cast Nat.sub_le ..)
  have hn1 : (1 : ℚ) ≤ n := by exact_mod_cast h1
  have c1 := mul_le_mul_of_nonneg_right hpn (by positivity : (0 : ℚ) ≤ 1 / 2 ^ 24)
  have c2 := mul_le_mul_of_nonneg_right (d1.trans hn1) (by positivity : (0 : ℚ) ≤ 1 / 2 ^ 24)
  have c3 : (1 : ℚ) / 2 ^ 150 ≤ n * (1 / 2 ^ 24) :=
    (by norm_num : (1 : ℚ) / 2 ^ 150 ≤ 1 * (1 / 2 ^ 24)).trans (mul_le_mul_of_nonneg_right hn1 (by positivity))
  have c4 : (n : ℚ) * (1 / 2 ^ 22) = 4 * (n * (1 / 2 ^ 24)) := by ring
  linarith

/-- The lookup never fails. -/
theorem shapeSample_ok (x : Sample32) (shape : List Sample32) (h : 0 < shape.length) :
    ∃ (a b y : Sample32), shape[⌊shapeIndex x shape.length⌋₊]? = some a ∧ shape[⌈shapeIndex x shape.length⌉₊]? = some b ∧
      shapeSample x shape = .ok y ∧ ((⌊shapeIndex x shape.length⌋₊ = ⌈shapeIndex x shape.length⌉₊ ∧ y = a) ∨
        y = interpolate (amountOfAfter (shapeIndex x shape.length)) a b) := by
  unfold shapeSample
  rw [if_neg (by omega)]
  have h1 := shapeIndex_le x shape.length
  simp only
  generalize shapeIndex x shape.length = p at *
  have hf : ⌊p⌋₊ ≤ shape.length - 1 := by
    have := Nat.floor_le_floor h1
    rwa [Nat.floor_natCast] at this
  have hc : ⌈p⌉₊ ≤ shape.length - 1 := Nat.ceil_le.mpr h1
  have e1 : shape[⌊p⌋₊]? = some (shape[⌊p⌋₊]'(by omega)) := List.getElem?_eq_getElem _
  have e2 : shape[⌈p⌉₊]? = some (shape[⌈p⌉₊]'(by omega)) := List.getElem?_eq_getElem _
  by_cases he : ⌊p⌋₊ = ⌈p⌉₊
  · rw [if_pos he, Buf.index_ok (by omega)]
    exact ⟨_, _, _, e1, e2, rfl, .inl ⟨he, rfl⟩⟩
  · rw [if_neg he, e1, e2]
    exact ⟨_, _, _, rfl, rfl, rfl, .inr rfl⟩

end Shape32
end Rawdio
