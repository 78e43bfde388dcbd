import Verif.Lemmas.ConvertFloat

/-!
# Properties of sample rate conversion with `f32` positions and samples (C112)
-/

namespace Rawdio
namespace Convert32

/-- C112: a frame of the result is the value of the polygon through the samples of the source at a position that is at
most `2^-22` of itself from the right one; the value has an error of at most `2^-21` of the samples around it.  The error
of the position is bounded in proportion to the length only: at a position of `2^22` frames the bound is a whole frame. -/
theorem C112_near (dst src : Buf Sample32) (n : Nat) (h : ValidConversion dst src n) :
    ∃ out, convertFrom dst src Loc.origin Loc.origin n = .ok out ∧ dst.SameShape out ∧
      ∀ c i, c < n → i < dst.frameCount → ∃ x y, out.sample? c i = some y ∧
        |x - i * ((src.sampleRate : ℚ) / dst.sampleRate)| ≤
          i * ((src.sampleRate : ℚ) / dst.sampleRate) * (1 / 2 ^ 22) ∧ NearPolygon src c x y := by
  have h1 := h.srcChannels
  have h2 := h.dstChannels
  have h3 := h.nonempty
  obtain ⟨out, e1, e2, _, _, e5⟩ := convert_spec dst src Loc.origin Loc.origin n h.srcWF h.dstWF h.writable
    (by simp only [Loc.origin]; omega) h3 (by simp only [Loc.origin]; omega) (Nat.zero_le _)
  refine ⟨out, e1, e2, fun c i hc hi => ?_⟩
  have h4 := e5 c i
  simp only [Loc.origin, Nat.zero_le, Nat.zero_add, true_and, Nat.sub_zero] at h4
  rw [if_pos ⟨hc, hi⟩] at h4
  have hx := position_nonneg _ (ratio_nonneg src.sampleRate dst.sampleRate) i
  have hp := position_near h.srcRate h.dstRate i
  unfold convertedAt at h4
  simp only [Nat.zero_add, Nat.sub_zero] at h4
  generalize position (ratio src.sampleRate dst.sampleRate) i = x at *
  obtain ⟨a, ha⟩ := Buf.sample?_isSome src h.srcWF c (min ⌊x⌋₊ (src.frameCount - 1)) (by omega) (by omega)
  obtain ⟨b, hb⟩ := Buf.sample?_isSome src h.srcWF c (min ⌈x⌉₊ (src.frameCount - 1)) (by omega) (by omega)
  rw [ha, hb] at h4
  exact ⟨x, _, h4, hp, a, b, ha, hb, interpolate_near hx a b⟩

/-- The claim that conversion to the same rate copies. -/
def SameRateCopies (frames : Nat → Prop) : Prop :=
  ∀ (dst src : Buf Sample32) (n : Nat), ValidConversion dst src n → src.sampleRate = dst.sampleRate →
    ∃ out, convertFrom dst src Loc.origin Loc.origin n = .ok out ∧
      ∀ c i, c < n → i < dst.frameCount → i < src.frameCount → frames i → out.sample? c i = src.sample? c i

/-- What a frame becomes at the same rate. -/
theorem same_rate (dst src : Buf Sample32) (n : Nat) (h : ValidConversion dst src n)
    (hr : src.sampleRate = dst.sampleRate) :
    ∃ out, convertFrom dst src Loc.origin Loc.origin n = .ok out ∧
      ∀ c i m, c < n → i < dst.frameCount → Float32.round i = (m : Nat) → m < src.frameCount →
        out.sample? c i = src.sample? c m := by
  have h1 := h.srcChannels
  have h2 := h.dstChannels
  obtain ⟨out, e1, e2, _, _, e5⟩ := convert_spec dst src Loc.origin Loc.origin n h.srcWF h.dstWF h.writable
    (by simp only [Loc.origin]; omega) h.nonempty (by simp only [Loc.origin]; omega) (Nat.zero_le _)
  refine ⟨out, e1, fun c i m hc hi hm hs => ?_⟩
  have h4 := e5 c i
  simp only [Loc.origin, Nat.zero_le, Nat.zero_add, true_and, Nat.sub_zero] at h4
  rw [if_pos ⟨hc, hi⟩, hr, ratio_same h.dstRate.1] at h4
  unfold convertedAt at h4
  rw [position_one, hm] at h4
  simp only [Nat.zero_add, Nat.sub_zero, Nat.floor_natCast, Nat.ceil_natCast, interpolate_whole] at h4
  rw [min_eq_left (by omega)] at h4
  obtain ⟨a, ha⟩ := Buf.sample?_isSome src h.srcWF c m (by omega) hs
  rw [ha] at h4 ⊢
  exact h4

/-- C112, partial: conversion to the same rate copies the first `2^24 + 1` frames to the last digit.  Missing: the frames
after (see `C112_same_rate_violated`). -/
theorem C112_same_rate_partial : SameRateCopies (fun i => i ≤ 2 ^ 24) := by
  intro dst src n h hr
  obtain ⟨out, e1, e2⟩ := same_rate dst src n h hr
  exact ⟨out, e1, fun c i hc hi hs hi' => e2 c i i hc hi (round_nat hi') hs⟩

/-- A mono buffer in which only one frame sounds. -/
def clickAt (frames k : Nat) : Buf Sample32 := .owned ((List.range frames).map fun i => if i = k then 1 else 0) 1 frames 48000

theorem clickAt_sample (frames k i : Nat) (h : i < frames) :
    (clickAt frames k).sample? 0 i = some (if i = k then 1 else 0) := by
  unfold clickAt Buf.sample?
  simp [h]

theorem clickAt_valid (frames k : Nat) (h : 0 < frames) : ValidConversion (clickAt frames k) (clickAt frames k) 1 := by
  refine ⟨?_, ?_, trivial, h, le_refl _, le_refl _, ⟨?_, ?_⟩, ⟨?_, ?_⟩⟩
  · simp [clickAt, Buf.WF]
  · simp [clickAt, Buf.WF]
  all_goals simp [clickAt, Buf.sampleRate]

/-- C112 is violated: frame `2^24 + 1`, about six minutes into a recording at 48 kHz, is replaced by the one before, since
its index is not an `f32` number. -/
theorem C112_same_rate_violated : ¬ SameRateCopies (fun _ => True) := by
  intro hall
  have key : ∀ k : Nat, Float32.round ((k + 1 : Nat) : ℚ) = (k : Nat) → False := by
    intro k hk
    obtain ⟨out, e1, e2⟩ := hall (clickAt (k + 2) (k + 1)) (clickAt (k + 2) (k + 1)) 1 (clickAt_valid _ _ (by omega)) rfl
    obtain ⟨out', d1, d2⟩ := same_rate (clickAt (k + 2) (k + 1)) (clickAt (k + 2) (k + 1)) 1 (clickAt_valid _ _ (by omega)) rfl
    rw [e1] at d1
    injection d1 with d1
    subst d1
    have hfc : (clickAt (k + 2) (k + 1)).frameCount = k + 2 := rfl
    have h1 := e2 0 (k + 1) (by omega) (by omega) (by omega) trivial
    rw [d2 0 (k + 1) k (by omega) (by omega) hk (by omega), clickAt_sample _ _ _ (by omega),
      clickAt_sample _ _ _ (by omega), if_neg (by omega), if_pos rfl] at h1
    injection h1 with h1
    have := congrArg Subtype.val h1
    rw [Sample32.zero_val, Sample32.one_val] at this
    norm_num at this
  exact key (2 ^ 24) round_odd

/-- Buffers that meet the hypotheses of `C112_near` and `C112_same_rate_partial`. -/
example : ValidConversion (clickAt 4 1) (clickAt 4 1) 1 ∧ (clickAt 4 1).sample? 0 1 = some 1 :=
  ⟨clickAt_valid 4 1 (by omega), clickAt_sample 4 1 1 (by omega)⟩

end Convert32
end Rawdio
