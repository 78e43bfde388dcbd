import Verif.Model.ShaperFloat
import Verif.Lemmas.ShapeFloat
import Verif.Lemmas.SampleRate
import Verif.Lemmas.Kernels

/-! # Lemmas about the table and the mix of the waveshaper with `f32` samples -/

namespace Rawdio
namespace Shaper32

open Convert32 Shape32

theorem round_count : Float32.round (Float32.round ((511 : Nat) : ℚ) - 1) = 510 := by
  rw [round_nat (by norm_num), show ((511 : Nat) : ℚ) - 1 = ((510 : Nat) : ℚ) by norm_num, round_nat (by norm_num)]
  norm_num

theorem inputValue_val {i : Nat} (h : i ≤ 510) :
    (inputValue i 511).1 = Float32.round (-1 + Float32.round (Float32.round (i / 510) * 2)) := by
  show Float32.round (-1 + Float32.round (Float32.round (Float32.round i / _) * 2)) = _
  rw [round_count, round_nat (by omega)]

theorem inputValue_first : (inputValue 0 511).1 = -1 := by
  rw [inputValue_val (by norm_num), Nat.cast_zero, zero_div, Float32.round_zero, zero_mul, Float32.round_zero, add_zero,
    Float32.round_neg, round_one']

theorem inputValue_middle : inputValue 255 511 = 0 := Subtype.ext (by
  have h : Float32.round (1 / 2) = 1 / 2 := by
    have := Float32.rep_div 1 1 (by norm_num) (by norm_num)
    norm_num at this
    exact Sample32.round_of_rep (by norm_num; exact this)
  rw [inputValue_val (by norm_num), show ((255 : Nat) : ℚ) / 510 = 1 / 2 by norm_num, h,
    show (1 / 2 : ℚ) * 2 = 1 by norm_num, round_one', neg_add_cancel, Float32.round_zero]
  rfl)

theorem inputValue_last : inputValue 510 511 = 1 := Subtype.ext (by
  have h : Float32.round 2 = 2 := by exact_mod_cast round_nat (n := 2) (by norm_num)
  rw [inputValue_val (by norm_num), show ((510 : Nat) : ℚ) / 510 = 1 by norm_num, round_one', one_mul, h,
    show (-1 + 2 : ℚ) = 1 by norm_num, round_one']
  rfl)

theorem inputValue_near {i : Nat} (h : i ≤ 510) : |(inputValue i 511).1 - (-1 + 2 * (i / 510))| ≤ 1 / 2 ^ 21 := by
  rw [inputValue_val h]
  have h0 : (0 : ℚ) ≤ i / 510 := by positivity
  have h1 : (i : ℚ) / 510 ≤ 1 := by
    rw [div_le_one (by norm_num)]
    exact_mod_cast h
  generalize (i : ℚ) / 510 = q at *
  have r1 := Float32.round_rel q
  have n0 := Float32.round_nonneg h0
  have n1 := Float32.round_le h0 (1 : Sample32).2 h1
  rw [abs_of_nonneg h0] at r1
  generalize Float32.round q = a at *
  change a ≤ 1 at n1
  have r2 := Float32.round_rel (a * 2)
  rw [abs_of_nonneg (by linarith : 0 ≤ a * 2)] at r2
  generalize Float32.round (a * 2) = b at *
  have r3 := Float32.round_rel (-1 + b)
  have hu : (1 : ℚ) / 2 ^ 150 ≤ 1 / 2 ^ 40 := by norm_num
  generalize (1 : ℚ) / 2 ^ 150 = u at *
  obtain ⟨r11, r12⟩ := abs_le.mp r1
  obtain ⟨r21, r22⟩ := abs_le.mp r2
  have hb : |-1 + b| ≤ 1 + 1 / 2 ^ 10 := by
    rw [abs_le]
    norm_num at r21 r22 hu ⊢
    constructor <;> linarith
  obtain ⟨r31, r32⟩ := abs_le.mp r3
  generalize Float32.round (-1 + b) = c at *
  generalize |-1 + b| = d at *
  rw [abs_le]
  norm_num at r11 r12 r21 r22 r31 r32 hb hu ⊢
  constructor <;> linarith

theorem inputValue_le {i : Nat} (h : i ≤ 510) : |(inputValue i 511).1| ≤ 1 := by
  rw [inputValue_val h]
  have h0 : (0 : ℚ) ≤ i / 510 := by positivity
  have h1 : (i : ℚ) / 510 ≤ 1 := by
    rw [div_le_one (by norm_num)]
    exact_mod_cast h
  have n0 := Float32.round_nonneg h0
  have n1 : Float32.round ((i : ℚ) / 510) ≤ 1 := Float32.round_le h0 (1 : Sample32).2 h1
  have m0 := Float32.round_nonneg (by linarith : 0 ≤ Float32.round ((i : ℚ) / 510) * 2)
  have m1 := Float32.round_mono (by linarith : 0 ≤ Float32.round ((i : ℚ) / 510) * 2)
    (by push_cast; linarith : Float32.round ((i : ℚ) / 510) * 2 ≤ ((2 : Nat) : ℚ))
  rw [round_nat (by norm_num)] at m1
  push_cast at m1
  exact Sample32.abs_round_le (1 : Sample32).2 (by
    rw [abs_le]
    constructor <;> linarith)

theorem transfer_length (f : Sample32 → Sample32) : (transfer f).length = 511 := by
  rw [transfer, List.length_map, List.length_range]

theorem transfer_get (f : Sample32 → Sample32) {i : Nat} (h : i ≤ 510) : (transfer f)[i]? = some (f (inputValue i 511)) := by
  rw [transfer, List.getElem?_map, List.getElem?_range (by omega)]
  rfl

/-- The points that are used for a sample are close to it. -/
theorem used_near {x : Sample32} (h : |x.1| ≤ 1) {i : Nat} (hi : i ≤ 510) (hd : |(i : ℚ) - shapeIndex x 511| ≤ 1) :
    |(inputValue i 511).1 - x.1| ≤ 1 / 254 := by
  have k1 := inputValue_near hi
  have k2 := shapeIndex_near h 511
  unfold place at k2
  generalize (inputValue i 511).1 = a at *
  generalize shapeIndex x 511 = p at *
  generalize x.1 = y at *
  rw [abs_le] at *
  norm_num at *
  constructor <;> linarith [k1.1, k1.2, k2.1, k2.2, hd.1, hd.2]

/-- The lookup of a sample without rounding up or down between points. -/
theorem shapeSample_whole {x : Sample32} {table : List Sample32} {m : Nat} (h : 0 < table.length)
    (hx : shapeIndex x table.length = m) : ∃ y, table[m]? = some y ∧ shapeSample x table = .ok y := by
  obtain ⟨a, b, y, e1, e2, e3, e4⟩ := shapeSample_ok x table h
  rw [hx, Nat.floor_natCast] at e1
  have : shapeSample x table = Buf.index table m := by
    unfold shapeSample
    rw [if_neg (by omega)]
    simp only
    rw [hx, Nat.floor_natCast, Nat.ceil_natCast, if_pos rfl]
  have hm : m < table.length := (List.getElem?_eq_some_iff.mp e1).1
  rw [Buf.index_ok hm] at this
  exact ⟨_, List.getElem?_eq_getElem hm, this⟩

theorem shapeIndex_zero : shapeIndex 0 511 = ((255 : Nat) : ℚ) := by
  have r : ∀ n : Nat, n < 2 ^ 53 → Float64.round n = n := fun n hn => by
    have := Float64.rep_int (n : ℤ) (by rw [abs_of_nonneg (by positivity)]; exact_mod_cast hn)
    exact Float64.round_rep (by positivity) (by exact_mod_cast this)
  have r1 : Float64.round 1 = 1 := by exact_mod_cast r 1 (by norm_num)
  have r2 : Float64.round (1 / 2) = 1 / 2 := by
    have := Float64.rep_div 1 1 (by norm_num) (by norm_num)
    exact Float64.round_rep (by norm_num) (by norm_num; norm_num at this; exact this)
  unfold shapeIndex
  simp only [Sample32.zero_val, zero_add, r1, r2]
  rw [show (1 / 2 : ℚ) * ((511 - 1 : Nat) : ℚ) = ((255 : Nat) : ℚ) by norm_num, r 255 (by norm_num)]
  norm_num

theorem mixSample_eq (input output mix : Sample32) : mixSample input output mix = interpolate mix input output := by
  have hc : ∀ a b : Sample32, a * b = b * a := fun a b => Subtype.ext (by
    rw [Sample32.mul_val, Sample32.mul_val, mul_comm])
  rw [mixSample, interpolate, Sample32.add_comm', hc input, hc output]

/-- A product divided by one of its factors. -/
theorem undo_near (x g : Sample32) (hg : 1 ≤ g.1) :
    |Float32.round ((x * g).1 / g.1) - x.1| ≤ |x.1| * (1 / 2 ^ 22) + 1 / 2 ^ 148 := by
  have r1 := Sample32.mul_near x g
  have r2 := Float32.round_rel ((x * g).1 / g.1)
  generalize (x * g).1 = p at *
  have hg0 : 0 < g.1 := by linarith
  rw [abs_of_pos hg0] at r1
  have hu0 : (0 : ℚ) ≤ 1 / 2 ^ 150 := by positivity
  have d : |p / g.1 - x.1| ≤ |x.1| * (1 / 2 ^ 24) + 1 / 2 ^ 150 := by
    rw [show p / g.1 - x.1 = (p - x.1 * g.1) / g.1 by field_simp, abs_div, abs_of_pos hg0, div_le_iff₀ hg0]
    have := mul_le_mul_of_nonneg_left hg hu0
    linarith
  have k1 := abs_add_le x.1 (p / g.1 - x.1)
  rw [add_sub_cancel] at k1
  have k2 := abs_sub_le (Float32.round (p / g.1)) (p / g.1) x.1
  have hx := abs_nonneg x.1
  have k3 := mul_le_mul_of_nonneg_right (k1.trans (add_le_add_right d |x.1|)) (by positivity : (0 : ℚ) ≤ 1 / 2 ^ 24)
  have hu : (1 : ℚ) / 2 ^ 148 = 4 * (1 / 2 ^ 150) := by norm_num
  rw [hu]
  generalize (1 : ℚ) / 2 ^ 150 = u at *
  norm_num at r2 d k3 ⊢
  linarith

theorem interpolate_one (a b : Sample32) : interpolate 1 a b = b := by
  have h2 : oneMinus 1 = 0 := Subtype.ext (by
    show Float32.round (1 - 1) = 0
    rw [sub_self, Float32.round_zero])
  rw [interpolate, h2, zero_mul, one_mul, zero_add]

end Shaper32
end Rawdio
