import Verif.Model.ConvertFloat
import Verif.Spec.ConvertFloat
import Verif.Lemmas.GainFloat
import Verif.Lemmas.SampleRate

/-! # Lemmas about sample rate conversion with `f32` positions -/

namespace Rawdio
namespace Convert32

open Buf

theorem convertSample_ok (source : List Sample32) (r : ℚ) (i : Nat) (h : 0 < source.length) :
    convertSample source r i = .ok (interpolate (amount (position r i))
      (source[min ⌊position r i⌋₊ (source.length - 1)]'(by omega))
      (source[min ⌈position r i⌉₊ (source.length - 1)]'(by omega))) := by
  unfold convertSample
  rw [if_neg (by omega)]
  simp only [bind, Except.bind, pure, Except.pure]
  rw [index_ok (by omega), index_ok (by omega)]

/-- The contents after a conversion. -/
def convertedAt (src : Buf Sample32) (srcLoc : Loc) (r : ℚ) (k i : Nat) : Option Sample32 := do
  let before ← src.sample? (srcLoc.channel + k)
    (srcLoc.frame + min ⌊position r i⌋₊ (src.frameCount - srcLoc.frame - 1))
  let after ← src.sample? (srcLoc.channel + k)
    (srcLoc.frame + min ⌈position r i⌉₊ (src.frameCount - srcLoc.frame - 1))
  return interpolate (amount (position r i)) before after

theorem convert_spec (dst src : Buf Sample32) (srcLoc dstLoc : Loc) (n : Nat)
    (hs : src.WF) (hd : dst.WF) (hw : dst.Writable) (hsc : srcLoc.channel + n ≤ src.channelCount)
    (hsf : srcLoc.frame < src.frameCount) (hdc : dstLoc.channel + n ≤ dst.channelCount)
    (hdf : dstLoc.frame ≤ dst.frameCount) :
    ∃ out, convertFrom dst src srcLoc dstLoc n = .ok out ∧ dst.SameShape out ∧ out.WF ∧ out.Writable ∧
      ∀ c f, out.sample? c f =
        if (dstLoc.channel ≤ c ∧ c < dstLoc.channel + n) ∧ dstLoc.frame ≤ f ∧ f < dst.frameCount then
          convertedAt src srcLoc (ratio src.sampleRate dst.sampleRate) (c - dstLoc.channel) (f - dstLoc.frame)
        else dst.sample? c f := by
  unfold convertFrom
  generalize ratio src.sampleRate dst.sampleRate = r
  induction n with
  | zero =>
    refine ⟨dst, rfl, SameShape.refl _, hd, hw, ?_⟩
    intro c f
    rw [if_neg (by omega)]
  | succ n ih =>
    obtain ⟨b, e1, e2, e3, e4, e5⟩ := ih (by omega) (by omega)
    have hcc := e2.channelCount
    have hfc := e2.frameCount
    obtain ⟨s, s1, s2, s3⟩ := channelData_spec src hs (srcLoc.offsetChannels n)
      (by simp only [Loc.offsetChannels]; omega) (by simp only [Loc.offsetChannels]; omega)
    obtain ⟨l, l1, l2, l3⟩ := channelData_spec b e3 (dstLoc.offsetChannels n)
      (by simp only [Loc.offsetChannels]; omega) (by simp only [Loc.offsetChannels]; omega)
    simp only [Loc.offsetChannels] at s2 s3 l2 l3
    have hsl : 0 < s.length := by omega
    obtain ⟨b', m1, m2, m3, m4, m5⟩ := modifyChannel_spec b e3 e4 (dstLoc.offsetChannels n)
      (by simp only [Loc.offsetChannels]; omega) (by simp only [Loc.offsetChannels]; omega)
      (fun data => (List.range data.length).mapM (convertSample s r)) l
      ((List.range l.length).map (fun (i : Nat) => interpolate (amount (position r i))
        (s[min ⌊position r i⌋₊ (s.length - 1)]'(by omega))
        (s[min ⌈position r i⌉₊ (s.length - 1)]'(by omega)))) l1
      (mapM_ok _ _ _ (fun i _ => convertSample_ok s r i hsl)) (by simp)
    refine ⟨b', ?_, e2.trans m2, m3, m4, ?_⟩
    · rw [List.range_succ, List.foldlM_append, e1]
      simp only [List.foldlM_cons, List.foldlM_nil, bind_pure]
      simp only [bind, Except.bind, s1, m1]
    · intro c f
      rw [show b'.sample? c f = if c = dstLoc.channel + n ∧ dstLoc.frame ≤ f ∧ f < b.frameCount then _
        else b.sample? c f from m5 c f]
      simp only [show (dstLoc.offsetChannels n).frame = dstLoc.frame from rfl]
      by_cases hc : c = dstLoc.channel + n
      · by_cases hf : dstLoc.frame ≤ f ∧ f < dst.frameCount
        · have h1 : c = dstLoc.channel + n ∧ dstLoc.frame ≤ f ∧ f < b.frameCount := by omega
          have h2 : (dstLoc.channel ≤ c ∧ c < dstLoc.channel + (n + 1)) ∧ dstLoc.frame ≤ f ∧ f < dst.frameCount := by
            omega
          rw [if_pos h1, if_pos h2]
          rw [List.getElem?_map, List.getElem?_range (by omega)]
          unfold convertedAt
          have hk : c - dstLoc.channel = n := by omega
          rw [hk, ← s2, ← s3, ← s3]
          rw [List.getElem?_eq_getElem (by omega), List.getElem?_eq_getElem (by omega)]
          rfl
        · have h1 : ¬ (c = dstLoc.channel + n ∧ dstLoc.frame ≤ f ∧ f < b.frameCount) := by omega
          have h2 : ¬ ((dstLoc.channel ≤ c ∧ c < dstLoc.channel + (n + 1)) ∧ dstLoc.frame ≤ f ∧ f < dst.frameCount) := by
            omega
          rw [if_neg h1, if_neg h2, e5, if_neg (by omega)]
      · have h1 : ¬ (c = dstLoc.channel + n ∧ dstLoc.frame ≤ f ∧ f < b.frameCount) := by omega
        rw [if_neg h1, e5]
        have : (c < dstLoc.channel + n ↔ c < dstLoc.channel + (n + 1)) := by omega
        simp only [this]

/-- Whole numbers up to 2^24 are `f32` numbers. -/
theorem round_nat {n : Nat} (h : n ≤ 2 ^ 24) : Float32.round n = n := by
  rcases Nat.lt_or_eq_of_le h with h | h
  · have := Float32.rep_div n 0 h (by norm_num)
    rw [pow_zero, div_one] at this
    exact Float32.round_rep (by positivity) this
  · have := Float32.round_rep (x := 2 ^ 24) (by positivity) ⟨1, 24, by norm_num, by norm_num, by norm_num⟩
    rw [h]
    push_cast
    exact this

theorem rel_mul {x y X Y d e : ℚ} (hX : 0 ≤ X) (hY : 0 ≤ Y) (hd : 0 ≤ d) (hx : |x - X| ≤ X * d)
    (hy : |y - Y| ≤ Y * e) : |x * y - X * Y| ≤ X * Y * (d + e + d * e) := by
  have h1 : x * y - X * Y = (x - X) * (y - Y) + X * (y - Y) + Y * (x - X) := by ring
  have h2 := abs_add_le ((x - X) * (y - Y) + X * (y - Y)) (Y * (x - X))
  have h3 := abs_add_le ((x - X) * (y - Y)) (X * (y - Y))
  rw [← h1] at h2
  rw [abs_mul, abs_mul] at h3
  rw [abs_mul Y, abs_of_nonneg hY] at h2
  rw [abs_of_nonneg hX] at h3
  have h4 : |x - X| * |y - Y| ≤ X * d * (Y * e) := mul_le_mul hx hy (abs_nonneg _) (by positivity)
  have h5 := mul_le_mul_of_nonneg_left hy hX
  have h6 := mul_le_mul_of_nonneg_left hx hY
  nlinarith

/-- How close the position is that is read. -/
theorem position_near {a b : Nat} (ha : 0 < a ∧ a ≤ 2 ^ 20) (hb : 0 < b ∧ b ≤ 2 ^ 20) (i : Nat) :
    |position (ratio a b) i - i * (a / b)| ≤ i * (a / b) * (1 / 2 ^ 22) := by
  rcases Nat.eq_zero_or_pos i with rfl | hi
  · simp [position, Float32.round_zero]
  have ha1 : (1 : ℚ) ≤ a := by exact_mod_cast ha.1
  have hb1 : (1 : ℚ) ≤ b := by exact_mod_cast hb.1
  have hb2 : (b : ℚ) ≤ 2 ^ 20 := by exact_mod_cast hb.2
  have hi1 : (1 : ℚ) ≤ i := by exact_mod_cast hi
  unfold position ratio
  rw [round_nat (ha.2.trans (by norm_num)), round_nat (hb.2.trans (by norm_num))]
  have hq : 1 / 2 ^ 20 ≤ (a : ℚ) / b := by
    rw [div_le_div_iff₀ (by positivity) (by linarith)]
    nlinarith
  generalize (a : ℚ) / b = q at *
  have hq0 : 0 ≤ q := le_trans (by positivity) hq
  have r1 := Float32.round_rel_normal (x := q) (by rw [abs_of_nonneg hq0]; exact le_trans (by norm_num) hq)
  have r2 := Float32.round_rel_normal (x := (i : ℚ)) (by rw [abs_of_nonneg (by linarith)]; exact le_trans (by norm_num) hi1)
  rw [abs_of_nonneg hq0] at r1
  rw [abs_of_nonneg (by linarith : (0 : ℚ) ≤ i)] at r2
  have m := rel_mul (by linarith) hq0 (by positivity) r2 r1
  have hiq : (1 : ℚ) / 2 ^ 20 ≤ i * q := by nlinarith
  generalize Float32.round i * Float32.round q = x at *
  generalize (i : ℚ) * q = X at *
  have hX : 0 ≤ X := le_trans (by positivity) hiq
  have hx : |x| ≤ X * 2 := by
    have := abs_add_le X (x - X)
    rw [add_sub_cancel, abs_of_nonneg hX] at this
    have h2 : X * (1 / 2 ^ 24 + 1 / 2 ^ 24 + 1 / 2 ^ 24 * (1 / 2 ^ 24)) ≤ X * 1 := mul_le_mul_of_nonneg_left (by norm_num) hX
    linarith
  have hlow : 1 / 2 ^ 21 ≤ |x| := by
    have := abs_sub_abs_le_abs_sub X x
    rw [abs_of_nonneg hX, abs_sub_comm] at this
    have h2 : X * (1 / 2 ^ 24 + 1 / 2 ^ 24 + 1 / 2 ^ 24 * (1 / 2 ^ 24)) ≤ X * (1 / 2) :=
      mul_le_mul_of_nonneg_left (by norm_num) hX
    have h3 : (1 : ℚ) / 2 ^ 21 = 1 / 2 ^ 20 * (1 / 2) := by norm_num
    linarith
  have r3 := Float32.round_rel_normal hlow
  have h4 := abs_sub_le (Float32.round x) x X
  have hx' : |x| ≤ X * (1 + 1 / 2 ^ 20) := by
    have := abs_add_le X (x - X)
    rw [add_sub_cancel, abs_of_nonneg hX] at this
    have h2 : X * (1 / 2 ^ 24 + 1 / 2 ^ 24 + 1 / 2 ^ 24 * (1 / 2 ^ 24)) ≤ X * (1 / 2 ^ 20) :=
      mul_le_mul_of_nonneg_left (by norm_num) hX
    linarith
  have h5 := mul_le_mul_of_nonneg_right hx' (by positivity : (0 : ℚ) ≤ 1 / 2 ^ 24)
  have h6 : X * (1 + 1 / 2 ^ 20) * (1 / 2 ^ 24) + X * (1 / 2 ^ 24 + 1 / 2 ^ 24 + 1 / 2 ^ 24 * (1 / 2 ^ 24)) ≤
      X * (1 / 2 ^ 22) := by
    rw [mul_assoc, ← mul_add]
    exact mul_le_mul_of_nonneg_left (by norm_num) hX
  linarith

theorem position_nonneg (r : ℚ) (hr : 0 ≤ r) (i : Nat) : 0 ≤ position r i :=
  Float32.round_nonneg (mul_nonneg (Float32.round_nonneg (Nat.cast_nonneg _)) hr)

theorem ratio_nonneg (a b : Nat) : 0 ≤ ratio a b :=
  Float32.round_nonneg (div_nonneg (Float32.round_nonneg (Nat.cast_nonneg _)) (Float32.round_nonneg (Nat.cast_nonneg _)))

/-- The error of the interpolation. -/
theorem interpolate_near {x : ℚ} (hx : 0 ≤ x) (a b : Sample32) :
    |(interpolate (amount x) a b).1 - ((1 - (x - ⌊x⌋₊)) * a.1 + (x - ⌊x⌋₊) * b.1)| ≤
      max |a.1| |b.1| * (1 / 2 ^ 21) + 1 / 2 ^ 148 := by
  have t0 : 0 ≤ x - ⌊x⌋₊ := sub_nonneg.mpr (Nat.floor_le hx)
  have t1 : x - ⌊x⌋₊ ≤ 1 := by linarith [Nat.lt_floor_add_one x]
  have hval : (amount x).1 = Float32.round (x - ⌊x⌋₊) := rfl
  unfold interpolate
  generalize amount x = T at *
  generalize x - ⌊x⌋₊ = t at *
  have hA : |a.1| ≤ max |a.1| |b.1| := le_max_left ..
  have hB : |b.1| ≤ max |a.1| |b.1| := le_max_right ..
  generalize max |a.1| |b.1| = X at *
  have hX : 0 ≤ X := (abs_nonneg _).trans hA
  have T0 : 0 ≤ T.1 := by rw [hval]; exact Float32.round_nonneg t0
  have T1 : T.1 ≤ 1 := by rw [hval]; exact Float32.round_le t0 (1 : Sample32).2 t1
  have e1 : |T.1 - t| ≤ 1 / 2 ^ 24 + 1 / 2 ^ 150 := by
    rw [hval]
    refine (Float32.round_rel t).trans ?_
    rw [abs_of_nonneg t0]
    have := mul_le_mul_of_nonneg_right t1 (by positivity : (0 : ℚ) ≤ 1 / 2 ^ 24)
    linarith
  have U0 : 0 ≤ Float32.round (1 - T.1) := Float32.round_nonneg (by linarith)
  have U1 : Float32.round (1 - T.1) ≤ 1 := Float32.round_le (by linarith) (1 : Sample32).2 (by linarith)
  have e2 : |Float32.round (1 - T.1) - (1 - t)| ≤ 2 * (1 / 2 ^ 24 + 1 / 2 ^ 150) := by
    have h1 := Float32.round_rel (1 - T.1)
    rw [abs_of_nonneg (by linarith : 0 ≤ 1 - T.1)] at h1
    have h2 := abs_sub_le (Float32.round (1 - T.1)) (1 - T.1) (1 - t)
    rw [show 1 - T.1 - (1 - t) = -(T.1 - t) by ring, abs_neg] at h2
    have := mul_le_mul_of_nonneg_right (by linarith : 1 - T.1 ≤ 1) (by positivity : (0 : ℚ) ≤ 1 / 2 ^ 24)
    linarith
  have key : ∀ (u w d : ℚ) (v : Sample32), 0 ≤ u → u ≤ 1 → |u - w| ≤ d → |v.1| ≤ X →
      |Float32.round (u * v.1) - w * v.1| ≤ X * (1 / 2 ^ 24 + d) + 1 / 2 ^ 150 ∧ |Float32.round (u * v.1)| ≤ X := by
    intro u w d v u0 u1 hd hv
    have h1 := Float32.round_rel (u * v.1)
    have h0 : |u * v.1| ≤ |v.1| := by
      rw [abs_mul, abs_of_nonneg u0]
      exact mul_le_of_le_one_left (abs_nonneg _) u1
    have h2 := abs_sub_le (Float32.round (u * v.1)) (u * v.1) (w * v.1)
    rw [← sub_mul, abs_mul (u - w)] at h2
    have h3 : |u - w| * |v.1| ≤ d * X := mul_le_mul hd hv (abs_nonneg _) ((abs_nonneg _).trans hd)
    have h4 := mul_le_mul_of_nonneg_right (h0.trans hv) (by positivity : (0 : ℚ) ≤ 1 / 2 ^ 24)
    refine ⟨by linarith, ?_⟩
    exact (Sample32.abs_round_le (Sample32.rep_abs v.2) h0).trans hv
  obtain ⟨p1, p2⟩ := key _ _ _ a U0 U1 e2 hA
  obtain ⟨q1, q2⟩ := key _ _ _ b T0 T1 e1 hB
  rw [Sample32.add_val, Sample32.mul_val, Sample32.mul_val]
  change |Float32.round (Float32.round (Float32.round (1 - T.1) * a.1) + Float32.round (T.1 * b.1)) - _| ≤ _
  generalize Float32.round (Float32.round (1 - T.1) * a.1) = p at *
  generalize Float32.round (T.1 * b.1) = q at *
  have s1 := Float32.round_rel (p + q)
  have s2 := abs_add_le p q
  have s3 := mul_le_mul_of_nonneg_right (by linarith : |p + q| ≤ 2 * X) (by positivity : (0 : ℚ) ≤ 1 / 2 ^ 24)
  have s4 := abs_add_le (Float32.round (p + q) - (p + q)) ((p - (1 - t) * a.1) + (q - t * b.1))
  have s5 := abs_add_le (p - (1 - t) * a.1) (q - t * b.1)
  rw [show Float32.round (p + q) - (p + q) + ((p - (1 - t) * a.1) + (q - t * b.1)) =
    Float32.round (p + q) - ((1 - t) * a.1 + t * b.1) by ring] at s4
  have c1 : X * (1 / 2 ^ 24 + 2 * (1 / 2 ^ 24 + 1 / 2 ^ 150)) + X * (1 / 2 ^ 24 + (1 / 2 ^ 24 + 1 / 2 ^ 150)) +
      2 * X * (1 / 2 ^ 24) ≤ X * (1 / 2 ^ 21) := by
    rw [← mul_add, show (2 : ℚ) * X * (1 / 2 ^ 24) = X * (2 * (1 / 2 ^ 24)) by ring, ← mul_add]
    exact mul_le_mul_of_nonneg_left (by norm_num) hX
  have c2 : (1 : ℚ) / 2 ^ 148 = 4 * (1 / 2 ^ 150) := by norm_num
  have c3 : (0 : ℚ) ≤ 1 / 2 ^ 150 := by positivity
  linarith

theorem round_one' : Float32.round 1 = 1 := Sample32.round_of_rep (x := 1) (1 : Sample32).2

theorem interpolate_whole (n : Nat) (a b : Sample32) : interpolate (amount n) a b = a := by
  have h0 : amount (n : ℚ) = 0 := Subtype.ext (by
    show Float32.round ((n : ℚ) - ⌊(n : ℚ)⌋₊) = 0
    rw [Nat.floor_natCast, sub_self, Float32.round_zero])
  have h1 : oneMinus 0 = 1 := Subtype.ext (by
    show Float32.round (1 - 0) = 1
    rw [sub_zero, round_one'])
  rw [h0, interpolate, h1, one_mul, zero_mul, add_zero]

theorem ratio_same {a : Nat} (h0 : 0 < a) : ratio a a = 1 := by
  unfold ratio
  have : (1 : ℚ) ≤ Float32.round a := Float32.le_round (by norm_num) (1 : Sample32).2 (by exact_mod_cast h0)
  rw [div_self (by linarith), round_one']

theorem position_one (i : Nat) : position 1 i = Float32.round i := by
  unfold position
  rw [mul_one, Sample32.round_of_rep (Sample32.rep_round _)]

/-- The first whole number that is not an `f32` number. -/
theorem round_odd : Float32.round ((2 ^ 24 + 1 : Nat) : ℚ) = (2 ^ 24 : Nat) := by
  rw [Float32.round_eq (e := 24) (by norm_num) (by norm_num) (by norm_num)]
  unfold Float32.grid Timestamp.roundHalfEven
  have : ⌊((2 ^ 24 + 1 : Nat) : ℚ) / 2 ^ ((24 : ℤ) - 23)⌋ = 2 ^ 23 := by
    rw [Int.floor_eq_iff]
    norm_num
  simp only [this]
  norm_num

end Convert32
end Rawdio
