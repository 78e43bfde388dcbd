import Verif.Lemmas.ShaperFloat
import Verif.Props.ShapeFloat

/-!
# Properties of the table and the mix of the waveshaper with `f32` samples (C114)
-/

namespace Rawdio
namespace Shaper32

open Convert32 Shape32

/-- C114: the shaped signal has the length of the signal, and silence, full scale and everything beyond full scale become
what the shaper gives for 0, 1 and -1, to the last digit, for every shaper. -/
theorem C114_exact (f : Sample32 → Sample32) (signal : List Sample32) :
    ∃ out, shape signal (transfer f) = .ok out ∧ out.length = signal.length ∧
      ∀ (i : Nat) (x : Sample32), signal[i]? = some x →
        (x.1 = 0 → out[i]? = some (f 0)) ∧ (1 ≤ x.1 → out[i]? = some (f 1)) ∧
        (∀ m : Sample32, m.1 = -1 → x.1 ≤ -1 → out[i]? = some (f m)) := by
  have hl := transfer_length f
  have hpos : 0 < (transfer f).length := by omega
  have hok : ∀ x, ∃ y, shapeSample x (transfer f) = .ok y := fun x =>
    have ⟨_, _, y, _, _, e, _⟩ := shapeSample_ok x (transfer f) hpos
    ⟨y, e⟩
  choose g hg using hok
  refine ⟨signal.map g, mapM_ok _ g signal (fun a _ => hg a), List.length_map _, ?_⟩
  intro i x hx
  rw [List.getElem?_map, hx, Option.map_some]
  have key : ∀ m : Nat, m ≤ 510 → shapeIndex x 511 = m → g x = f (inputValue m 511) := by
    intro m hm hidx
    obtain ⟨y, k1, k2⟩ := shapeSample_whole hpos (by rw [hl]; exact hidx)
    rw [transfer_get f hm] at k1
    rw [hg x] at k2
    exact (Except.ok.inj k2).trans (Option.some.inj k1).symm
  refine ⟨fun h0 => ?_, fun h1 => ?_, fun m hm h2 => ?_⟩
  · have : x = 0 := Subtype.ext h0
    rw [key 255 (by norm_num) (by rw [this]; exact shapeIndex_zero), inputValue_middle]
  · rw [key 510 (by norm_num) (by rw [shapeIndex_high h1 (by norm_num)]), inputValue_last]
  · rw [key 0 (by norm_num) (by rw [shapeIndex_low h2, Nat.cast_zero])]
    rw [show inputValue 0 511 = m from Subtype.ext (inputValue_first.trans hm.symm)]

/-- C114: for a shaper whose values between -1 and 1 differ by at most `K` times the difference of the samples and are at
most `B`, every sample between -1 and 1 becomes what the shaper gives for it, up to `K / 254` for the table and the rounding. -/
theorem C114_close (f : Sample32 → Sample32) (K B : ℚ) (hK : 0 ≤ K)
    (hf : ∀ a b : Sample32, |a.1| ≤ 1 → |b.1| ≤ 1 → |(f a).1 - (f b).1| ≤ K * |a.1 - b.1|)
    (hB : ∀ a : Sample32, |a.1| ≤ 1 → |(f a).1| ≤ B) (x : Sample32) (hx : |x.1| ≤ 1) :
    ∃ y, shapeSample x (transfer f) = .ok y ∧ |y.1 - (f x).1| ≤ K * (1 / 254) + B * (1 / 2 ^ 21) + 1 / 2 ^ 148 := by
  have hl := transfer_length f
  obtain ⟨a, b, y, e1, e2, e3, e4⟩ := shapeSample_ok x (transfer f) (by omega)
  rw [hl] at e1 e2 e4
  have i0 := shapeIndex_nonneg x 511
  have i1 := shapeIndex_le x 511
  have hf1 : ⌊shapeIndex x 511⌋₊ ≤ 510 := by
    have := Nat.floor_le_floor i1
    rwa [Nat.floor_natCast] at this
  have hc1 : ⌈shapeIndex x 511⌉₊ ≤ 510 := Nat.ceil_le.mpr i1
  rw [transfer_get f hf1] at e1
  rw [transfer_get f hc1] at e2
  have na := used_near hx hf1 (by
    have f1 := Nat.floor_le i0
    have f2 := Nat.lt_floor_add_one (shapeIndex x 511)
    rw [abs_le]
    constructor <;> linarith)
  have nb := used_near hx hc1 (by
    have f1 := Nat.le_ceil (shapeIndex x 511)
    have f2 := Nat.ceil_lt_add_one i0
    rw [abs_le]
    constructor <;> linarith)
  have da := (hf (inputValue ⌊shapeIndex x 511⌋₊ 511) x (inputValue_le hf1) hx).trans (mul_le_mul_of_nonneg_left na hK)
  have db := (hf (inputValue ⌈shapeIndex x 511⌉₊ 511) x (inputValue_le hc1) hx).trans (mul_le_mul_of_nonneg_left nb hK)
  rw [Option.some.inj e1] at da
  rw [Option.some.inj e2] at db
  have ba : |a.1| ≤ B := by rw [← Option.some.inj e1]; exact hB _ (inputValue_le hf1)
  have bb : |b.1| ≤ B := by rw [← Option.some.inj e2]; exact hB _ (inputValue_le hc1)
  have hB0 : 0 ≤ B := (abs_nonneg _).trans ba
  have hu : (0 : ℚ) ≤ 1 / 2 ^ 148 := by positivity
  have hBu : (0 : ℚ) ≤ B * (1 / 2 ^ 21) := by positivity
  refine ⟨y, e3, ?_⟩
  rcases e4 with ⟨_, rfl⟩ | rfl
  · linarith
  · obtain ⟨t0, t1, _⟩ := amountOfAfter_near i0 i1 (by norm_num) (by norm_num)
    have k := interpolate_given (amountOfAfter (shapeIndex x 511)) a b t0 t1
    have k3 := mul_le_mul_of_nonneg_right (max_le ba bb) (by positivity : (0 : ℚ) ≤ 1 / 2 ^ 21)
    generalize interpolate (amountOfAfter (shapeIndex x 511)) a b = y at *
    generalize (amountOfAfter (shapeIndex x 511)).1 = T at *
    have k1 : |(1 - T) * a.1 + T * b.1 - (f x).1| ≤ K * (1 / 254) := by
      have := abs_add_le ((1 - T) * (a.1 - (f x).1)) (T * (b.1 - (f x).1))
      rw [abs_mul, abs_mul, abs_of_nonneg t0, abs_of_nonneg (by linarith : 0 ≤ 1 - T),
        show (1 - T) * (a.1 - (f x).1) + T * (b.1 - (f x).1) = (1 - T) * a.1 + T * b.1 - (f x).1 by ring] at this
      have m1 := mul_le_mul_of_nonneg_left da (by linarith : 0 ≤ 1 - T)
      have m2 := mul_le_mul_of_nonneg_left db t0
      linarith
    have k2 := abs_sub_le y.1 ((1 - T) * a.1 + T * b.1) (f x).1
    linarith

/-- C114: with the mix at 0 a frame is the input and with the mix at 1 it is the shaped signal, to the last digit; in
between it is their weighted mean, up to `2^-21` of the louder of them, plus `2^-148`. -/
theorem C114_mix (input output mix : List Sample32) (h1 : input.length = output.length) (h2 : input.length = mix.length) :
    (mixInput input output mix).length = output.length ∧
      ∀ (i : Nat) (a b m : Sample32), input[i]? = some a → output[i]? = some b → mix[i]? = some m →
        ∃ y, (mixInput input output mix)[i]? = some y ∧ (m.1 = 0 → y = a) ∧ (m.1 = 1 → y = b) ∧
          (0 ≤ m.1 → m.1 ≤ 1 →
            |y.1 - ((1 - m.1) * a.1 + m.1 * b.1)| ≤ max |a.1| |b.1| * (1 / 2 ^ 21) + 1 / 2 ^ 148) := by
  refine ⟨Kernels.length_zipInto3 .., ?_⟩
  intro i a b m ha hb hm
  obtain ⟨hi, rfl⟩ := List.getElem?_eq_some_iff.mp hb
  obtain ⟨_, rfl⟩ := List.getElem?_eq_some_iff.mp ha
  obtain ⟨_, rfl⟩ := List.getElem?_eq_some_iff.mp hm
  refine ⟨_, Kernels.zipInto3_get mixSample input output mix h1 h2 i hi, ?_, ?_, ?_⟩
  · intro h
    rw [mixSample_eq, show mix[i] = 0 from Subtype.ext h, interpolate_zero]
  · intro h
    rw [mixSample_eq, show mix[i] = 1 from Subtype.ext h, interpolate_one]
  · intro k0 k1
    rw [mixSample_eq]
    exact interpolate_given _ _ _ k0 k1

/-- C114: taking the overdrive back after applying it gives the samples up to `2^-22` of each, plus `2^-148`, for all gains
from 1, and to the last digit where the gain is 1. -/
theorem C114_overdrive (gain : Sample32 → Sample32) (hg : ∀ o, 1 ≤ (gain o).1) (overdrive samples : List Sample32)
    (h : overdrive.length = samples.length) :
    (reverseOverdrive gain overdrive (applyOverdrive gain overdrive samples)).length = samples.length ∧
      ∀ (i : Nat) (o x : Sample32), overdrive[i]? = some o → samples[i]? = some x →
        ∃ y, (reverseOverdrive gain overdrive (applyOverdrive gain overdrive samples))[i]? = some y ∧
          |y.1 - x.1| ≤ |x.1| * (1 / 2 ^ 22) + 1 / 2 ^ 148 ∧ ((gain o).1 = 1 → y = x) := by
  have hl : (applyOverdrive gain overdrive samples).length = samples.length := Kernels.length_zipInto ..
  refine ⟨(Kernels.length_zipInto ..).trans hl, ?_⟩
  intro i o x ho hx
  obtain ⟨hi, rfl⟩ := List.getElem?_eq_some_iff.mp hx
  obtain ⟨_, rfl⟩ := List.getElem?_eq_some_iff.mp ho
  have e1 : (applyOverdrive gain overdrive samples)[i]? = some (samples[i] * gain overdrive[i]) :=
    Kernels.zipInto_get _ overdrive samples h i hi
  have e2 := Kernels.zipInto_get (fun overdrive sample : Sample32 =>
    (⟨Float32.round (sample.1 / (gain overdrive).1), Sample32.rep_round _⟩ : Sample32)) overdrive
    (applyOverdrive gain overdrive samples) (h.trans hl.symm) i (by omega)
  have e3 : (applyOverdrive gain overdrive samples)[i]'(by omega) = samples[i] * gain overdrive[i] := by
    rw [List.getElem?_eq_getElem (by omega)] at e1
    exact Option.some.inj e1
  rw [e3] at e2
  refine ⟨_, e2, undo_near _ _ (hg _), fun h1 => ?_⟩
  have hone : gain overdrive[i] = 1 := Subtype.ext h1
  apply Subtype.ext
  show Float32.round ((samples[i] * gain overdrive[i]).1 / (gain overdrive[i]).1) = _
  rw [hone, mul_one, Sample32.one_val, div_one, Sample32.round_of_rep samples[i].2]

/-- A gain that meets the hypotheses of `C114_overdrive`. -/
example : ∀ o : Sample32, 1 ≤ ((fun o : Sample32 => if 1 ≤ o.1 then o else 1) o).1 := by
  intro o
  dsimp only
  split_ifs with h
  · exact h
  · exact le_rfl

/-- The shaper that changes nothing meets the hypotheses of `C114_close`, so samples come out within 1/250 of what went
in. -/
example (x : Sample32) (hx : |x.1| ≤ 1) : ∃ y, shapeSample x (transfer id) = .ok y ∧ |y.1 - x.1| ≤ 1 / 250 := by
  obtain ⟨y, h1, h2⟩ := C114_close id 1 1 zero_le_one (fun a b _ _ => by rw [one_mul]; rfl) (fun a ha => ha) x hx
  exact ⟨y, h1, h2.trans (by norm_num)⟩

/-- Lists that meet the hypotheses of `C114_mix`: a dry frame and a wet one. -/
example : mixInput [1, 1] [0, 0] [0, 1] = [1, 0] := by
  show [mixSample 1 0 0, mixSample 1 0 1] = [1, 0]
  rw [mixSample_eq, mixSample_eq, interpolate_zero, interpolate_one]

/-- Silence through a shaper that adds a constant, which `C114_exact` allows. -/
example : ∃ out, shape [0, 1] (transfer (fun _ => 1)) = .ok out ∧ out[0]? = some 1 := by
  obtain ⟨out, h1, _, h2⟩ := C114_exact (fun _ => 1) [0, 1]
  exact ⟨out, h1, (h2 0 0 rfl).1 rfl⟩

end Shaper32
end Rawdio
