import Verif.Props.Waveshaper

/-! # Properties of the built-in curves of the waveshaper (C71, C72) -/

namespace Rawdio
namespace Waveshaper

open Buf

/-- Where the curve is the identity on both sides of a sample, the sample comes out as it went in. -/
theorem polygon_identity (curve : ℝ → ℝ) (lo hi : ℝ) (hlo : -1 ≤ lo) (hhi : hi ≤ 1) (hid : ∀ x, lo ≤ x → x ≤ hi → curve x = x) (s y : ℝ)
    (h1 : lo + 2 / 510 ≤ s) (h2 : s ≤ hi - 2 / 510)
    (h : OnPolygon (fun i => curve (-1 + 2 * i / 510)) 511 ((s + 1) / 2 * 510) y) : y = s := by
  rcases h with ⟨h3, _⟩ | ⟨h3, _⟩ | ⟨k, t, hk, ht0, ht1, hp, rfl⟩
  · exfalso; linarith
  · exfalso; push_cast at h3; linarith
  · have e1 : -1 + 2 * (k : ℝ) / 510 = s - 2 * t / 510 := by linear_combination (-2 / 510 : ℝ) * hp
    have e2 : -1 + 2 * ((k + 1 : Nat) : ℝ) / 510 = s + 2 * (1 - t) / 510 := by
      push_cast; linear_combination (-2 / 510 : ℝ) * hp
    simp only [e1, e2]
    have t1 : 2 * t / 510 ≤ 2 / 510 := by linarith
    have t2 : 0 ≤ 2 * t / 510 := by linarith
    have t3 : 2 * (1 - t) / 510 ≤ 2 / 510 := by linarith
    have t4 : 0 ≤ 2 * (1 - t) / 510 := by linarith
    rw [hid _ (by linarith) (by linarith), hid _ (by linarith) (by linarith)]
    ring

/-- C72, partial: a signal that stays below the threshold (after the overdrive) by at least the distance of two
points of the table passes unchanged, whatever the mix.  Missing for the full claim: signals closer to the
threshold, and thresholds above 1. -/
theorem C72_quiet_unchanged_partial (threshold overdrive mix x v : ℝ) (ht : threshold ≤ 1) (ho : 0 ≤ overdrive)
    (hx : |x * drive overdrive| ≤ threshold - 2 / 510) (h : Shaped (clipTo threshold) overdrive mix x v) : v = x := by
  obtain ⟨y, hy, rfl⟩ := h
  obtain ⟨h1, h2⟩ := abs_le.mp hx
  have hg := drive_ge_one overdrive ho
  have := polygon_identity (clipTo threshold) (-threshold) threshold (by linarith) ht
    (fun x a b => by unfold clipTo; rw [min_eq_left b, max_eq_right a]) _ y (by linarith) (by linarith) hy
  rw [this, mul_div_assoc, div_self (by linarith), mul_one]
  ring

example : Shaped (clipTo 1) 0 (1 / 2) (1 / 4) (1 / 4) := by
  have hd : drive 0 = 1 := by simp [drive]
  refine ⟨1 / 4, ?_, by rw [hd]; ring⟩
  rw [hd]
  refine Or.inr (Or.inr ⟨318, 3 / 4, by norm_num, by norm_num, by norm_num, by push_cast; norm_num, ?_⟩)
  simp only [clipTo]
  norm_num

/-- C72 is violated below the threshold: with a threshold of 1/2 a sample of exactly 1/2 (not over the threshold)
is attenuated, because the corner of the curve is cut between two points of the table. -/
theorem C72_corner_violated (sr mf : Nat) :
    shapeSample (some (1 / 2)) (new (hardCurve (1 / 2)) sr mf).transfer = .ok (some (1 / 2 - 1 / 1020)) := by
  obtain ⟨y, h1, h2⟩ := C55_sample (clipTo (1 / 2)) _ (hardCurve_eq (1 / 2) (by norm_num)) sr mf (1 / 2)
  rw [h1]
  have : y = 1 / 2 - 1 / 1020 := by
    refine h2.unique (by norm_num) (Or.inr (Or.inr ⟨382, 1 / 2, by norm_num, by norm_num, by norm_num, by push_cast; norm_num, ?_⟩))
    simp only [clipTo]
    push_cast
    rw [min_eq_left (by norm_num), min_eq_right (by norm_num), max_eq_right (by norm_num), max_eq_right (by norm_num)]
    norm_num
  rw [this]

/-- C72 is violated for every threshold above 1: the sample exactly at the threshold is clipped to 1. -/
theorem C72_high_threshold_violated (threshold : ℝ) (ht : 1 < threshold) (s : ℝ) (hs : 1 ≤ s) (sr mf : Nat) :
    shapeSample (some s) (new (hardCurve threshold) sr mf).transfer = .ok (some 1) := by
  obtain ⟨y, h1, h2⟩ := C55_sample (clipTo threshold) _ (hardCurve_eq threshold (by linarith)) sr mf s
  rw [h1]
  have : y = 1 := by
    refine h2.unique (by norm_num) (Or.inr (Or.inl ⟨by push_cast; linarith, ?_⟩))
    simp only [clipTo]
    push_cast
    rw [min_eq_left (by norm_num; linarith), max_eq_right (by norm_num; linarith)]
    norm_num
  rw [this]

example : shapeSample (some 2) (new (hardCurve 2) 48000 512).transfer = .ok (some 1) :=
  C72_high_threshold_violated 2 (by norm_num) 2 (by norm_num) _ _

/-- The soft saturator for thresholds below 1. -/
noncomputable def softTo (threshold x : ℝ) : ℝ :=
  if x < threshold then x else threshold + (x - threshold) / (1 + ((x - threshold) / (1 - threshold)) ^ 2)

theorem softCurve_eq (threshold : ℝ) (ht : threshold < 1) (x : ℝ) : softCurve threshold x = some (softTo threshold x) := by
  unfold softCurve softTo
  by_cases h : x < threshold
  · rw [if_pos h, if_pos h]
  · rw [if_neg h, if_neg (by linarith), if_neg h]

theorem softTo_le (threshold : ℝ) (ht : threshold < 1) (x : ℝ) : softTo threshold x ≤ (1 + threshold) / 2 := by
  unfold softTo
  by_cases h : x < threshold
  · rw [if_pos h]; linarith
  · rw [if_neg h]
    have ha : 0 < 1 - threshold := by linarith
    generalize hd : (x - threshold) / (1 - threshold) = d
    have hx : x - threshold = d * (1 - threshold) := by rw [← hd]; field_simp
    rw [hx]
    have hpos : 0 < 1 + d ^ 2 := by positivity
    have : d * (1 - threshold) / (1 + d ^ 2) ≤ (1 - threshold) / 2 := by
      rw [div_le_div_iff₀ hpos (by norm_num)]
      nlinarith [sq_nonneg (d - 1), mul_nonneg ha.le (sq_nonneg (d - 1))]
    linarith

theorem softTo_ge (threshold : ℝ) (h0 : 0 ≤ threshold) (x : ℝ) (hx : -1 ≤ x) : -1 ≤ softTo threshold x := by
  unfold softTo
  by_cases h : x < threshold
  · rw [if_pos h]; exact hx
  · rw [if_neg h]
    have : 0 ≤ (x - threshold) / (1 + ((x - threshold) / (1 - threshold)) ^ 2) := by
      apply div_nonneg (by linarith)
      positivity
    linarith

/-- C71, partial: for thresholds in [0,1) the soft saturator gives a number for every sample, never above
(1 + threshold)/2.  Missing for the full claim: the threshold 1, which the node accepts. -/
theorem C71_soft_saturator_partial (threshold : ℝ) (h0 : 0 ≤ threshold) (h1 : threshold < 1) (sr mf : Nat) (s : ℝ) :
    ∃ y, shapeSample (some s) (new (softCurve threshold) sr mf).transfer = .ok (some y) ∧ -1 ≤ y ∧
      y ≤ (1 + threshold) / 2 :=
  C55_between (softTo threshold) _ (softCurve_eq threshold h1) sr mf s (-1) ((1 + threshold) / 2)
    (fun x hx _ => ⟨softTo_ge threshold h0 x hx, softTo_le threshold h1 x⟩)

example : ∃ y, shapeSample (some 5) (new (softCurve (1 / 2)) 48000 512).transfer = .ok (some y) ∧ -1 ≤ y ∧
    y ≤ (1 + 1 / 2) / 2 := C71_soft_saturator_partial (1 / 2) (by norm_num) (by norm_num) _ _ _

/-- C71, blocks: for thresholds in [0,1) every sequence of blocks comes out as numbers; samples that stay below the
threshold by at least the distance of two points of the table pass unchanged. -/
theorem C71_quiet_unchanged (threshold overdrive mix x v : ℝ) (h1 : threshold < 1) (ho : 0 ≤ overdrive)
    (hlo : -1 + 2 / 510 ≤ x * drive overdrive) (hx : x * drive overdrive ≤ threshold - 2 / 510)
    (h : Shaped (softTo threshold) overdrive mix x v) : v = x := by
  obtain ⟨y, hy, rfl⟩ := h
  have hg := drive_ge_one overdrive ho
  have := polygon_identity (softTo threshold) (-1) threshold (le_refl _) h1.le ?_ _ y hlo hx hy
  · rw [this, mul_div_assoc, div_self (by linarith), mul_one]
    ring
  · intro x _ h2
    unfold softTo
    by_cases h : x < threshold
    · rw [if_pos h]
    · have : x = threshold := by linarith
      rw [if_neg h, this]
      simp

/-- The last entry of the table of the soft saturator with threshold 1 is not a number. -/
theorem soft_last (sr mf : Nat) : (new (softCurve 1) sr mf).transfer.getD 510 none = none := by
  unfold new
  simp only [inputValue_eq]
  rw [List.getD_eq_getElem?_getD, List.getElem?_map, show numPoints = 511 from rfl, List.getElem?_range (by norm_num)]
  have : (-1 : ℝ) + 2 * ((510 : Nat) : ℝ) / 510 = 1 := by push_cast; norm_num
  simp only [Option.map_some, Option.getD_some, this]
  unfold softCurve
  simp

/-- C71 is violated: with the permitted threshold 1 every sample above 1 - 1/255 (after the overdrive) is turned
into something that is not a number. -/
theorem C71_soft_saturator_violated (sr mf : Nat) (s : ℝ) (hs : 1 - 2 / 510 < s) :
    shapeSample (some s) (new (softCurve 1) sr mf).transfer = .ok none := by
  have hlen : (new (softCurve 1) sr mf).transfer.length = 511 := by simp [new, numPoints]
  rw [shapeSample_ok _ (by omega), shaped_eq _ (by omega), hlen]
  have hi : 509 < shapeIndex s 511 := by
    unfold shapeIndex
    apply lt_max_of_lt_right
    apply lt_min
    · push_cast; linarith
    · push_cast; norm_num
  have hi2 : shapeIndex s 511 ≤ 510 := by
    have := shapeIndex_le s 511 (by norm_num)
    push_cast at this; linarith
  have hc : ⌈shapeIndex s 511⌉₊ = 510 := by
    apply le_antisymm
    · exact Nat.ceil_le.mpr (by push_cast; exact hi2)
    · exact Nat.lt_ceil.mpr (by push_cast; exact hi)
  rw [hc, soft_last]
  by_cases h : ⌊shapeIndex s 511⌋₊ = 510
  · rw [if_pos h, h, soft_last]
  · rw [if_neg h]
    unfold blend?
    cases (new (softCurve 1) sr mf).transfer.getD ⌊shapeIndex s 511⌋₊ none <;> rfl

/-- C71 is violated for whole blocks: with threshold 1 a full-scale sample makes the output of the node not a
number, at every position of the mix. -/
theorem C71_block_violated (m : ℝ) (hm : 0 ≤ m ∧ m ≤ 1) :
    ∃ w out, (new (softCurve 1) 48000 512).processAudio [0] [m] (owned [some 1] 1 1 48000) (owned [some 0] 1 1 48000) =
      .ok (w, out) ∧ out.sample? 0 0 = some none := by
  obtain ⟨w', out, e1, _, _, _, _, _, e7⟩ := processAudio_ok (new_ok (softCurve 1) 48000 512) (by norm_num)
    (input := owned [some 1] 1 1 48000) (output := owned [some 0] 1 1 48000) rfl rfl trivial [0] [m] rfl rfl
    (by show 0 < 1; norm_num) (by show 1 ≤ 512; norm_num) rfl rfl rfl
  refine ⟨w', out, e1, ?_⟩
  rw [e7 0 0 (by show 0 < 1; norm_num) (by show 0 < 1; norm_num)]
  have hg : overdriveGain 0 = 1 := by rw [overdriveGain_eq 0 (by norm_num)]; simp [drive]
  have h1 : shaped (new (softCurve 1) 48000 512).transfer (some 1) = none := by
    have := C71_soft_saturator_violated 48000 512 1 (by norm_num)
    have hlen : (new (softCurve 1) 48000 512).transfer.length = 511 := by
      unfold new
      rw [List.length_map, List.length_range]
      rfl
    rw [shapeSample_ok _ (by omega)] at this
    exact Except.ok.inj this
  show some (outSample _ 0 m (some 1)) = some none
  unfold outSample
  rw [Option.map_some, hg, mul_one, h1]
  rfl

/-- C71 is violated for the other polarity: at every threshold below 1 a full-scale negative sample is not
saturated at all, while a positive one is. -/
theorem C71_one_sided_violated (threshold : ℝ) (h0 : 0 ≤ threshold) (h1 : threshold < 1) (sr mf : Nat) :
    shapeSample (some (-1)) (new (softCurve threshold) sr mf).transfer = .ok (some (-1)) ∧
    shapeSample (some 1) (new (softCurve threshold) sr mf).transfer = .ok (some ((1 + threshold) / 2)) := by
  obtain ⟨y, a1, a2⟩ := C55_sample (softTo threshold) _ (softCurve_eq threshold h1) sr mf (-1)
  obtain ⟨z, b1, b2⟩ := C55_sample (softTo threshold) _ (softCurve_eq threshold h1) sr mf 1
  rw [a1, b1]
  have hy : y = -1 := by
    refine a2.unique (by norm_num) (Or.inl ⟨by norm_num, ?_⟩)
    simp only [softTo, Nat.cast_zero, mul_zero, zero_div, add_zero]
    rw [if_pos (by linarith)]
  have hz : z = (1 + threshold) / 2 := by
    refine b2.unique (by norm_num) (Or.inr (Or.inl ⟨by push_cast; norm_num, ?_⟩))
    have : (-1 : ℝ) + 2 * ((511 - 1 : Nat) : ℝ) / 510 = 1 := by push_cast; norm_num
    simp only [softTo]
    rw [this, if_neg (by linarith), div_self (by linarith)]
    ring
  rw [hy, hz]
  exact ⟨rfl, rfl⟩

theorem tanh_mono {x y : ℝ} (h : x ≤ y) : Real.tanh x ≤ Real.tanh y := by
  rw [Real.tanh_eq, Real.tanh_eq]
  have a := Real.exp_pos x
  have a' := Real.exp_pos (-x)
  have b := Real.exp_pos y
  have b' := Real.exp_pos (-y)
  have h1 := Real.exp_le_exp.mpr h
  have h2 := Real.exp_le_exp.mpr (neg_le_neg h)
  rw [div_le_div_iff₀ (by linarith) (by linarith)]
  nlinarith [mul_le_mul h1 h2 b'.le b.le]

/-- C55: the tanh curve keeps every sample within 2 tanh(1/2), at any level of the input. -/
theorem C55_tanh (sr mf : Nat) (s : ℝ) :
    ∃ y, shapeSample (some s) (new tanhCurve sr mf).transfer = .ok (some y) ∧ |y| ≤ 2 * Real.tanh (1 / 2) := by
  have hb : ∀ x : ℝ, -1 ≤ x → x ≤ 1 →
      2 * Real.tanh (-(1 / 2)) ≤ 2 * Real.tanh (x / 2) ∧ 2 * Real.tanh (x / 2) ≤ 2 * Real.tanh (1 / 2) := by
    intro x hx1 hx2
    have hm := @tanh_mono
    exact ⟨by have := hm (by linarith : -(1 / 2) ≤ x / 2); linarith,
      by have := hm (by linarith : x / 2 ≤ 1 / 2); linarith⟩
  obtain ⟨y, h1, h2, h3⟩ := C55_between (fun x => 2 * Real.tanh (x / 2)) tanhCurve (fun _ => rfl) sr mf s _ _ hb
  refine ⟨y, h1, ?_⟩
  rw [Real.tanh_neg] at h2
  rw [abs_le]
  constructor <;> linarith

end Waveshaper
end Rawdio
