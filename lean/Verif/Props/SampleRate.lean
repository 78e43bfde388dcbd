import Mathlib.Tactic.FieldSimp
import Verif.Lemmas.SampleRate
import Verif.Spec.Mixer

/-! # Properties of sample rate conversion (C70) -/

namespace Rawdio
namespace Buf

/-- C70: every sample of the destination is the value of the polygon through the source samples at the time of
that sample, and samples outside the destination range keep their values. -/
theorem C70_interpolates (dst src : Buf ℝ) (srcLoc dstLoc : Loc) (n : Nat)
    (hs : src.WF) (hd : dst.WF) (hw : dst.Writable) (hsc : srcLoc.channel + n ≤ src.channelCount)
    (hsf : srcLoc.frame < src.frameCount) (hdc : dstLoc.channel + n ≤ dst.channelCount)
    (hdf : dstLoc.frame ≤ dst.frameCount) :
    ∃ out, dst.sampleRateConvertFrom blend src srcLoc dstLoc n = .ok out ∧ dst.SameShape out ∧
      (∀ k i, k < n → dstLoc.frame + i < dst.frameCount →
        OnPolygon (fun j => src.sampleOr0 (srcLoc.channel + k) (srcLoc.frame + j)) (src.frameCount - srcLoc.frame)
          ((i : ℝ) * ((src.sampleRate : ℝ) / dst.sampleRate)) (out.sampleOr0 (dstLoc.channel + k) (dstLoc.frame + i))) ∧
      ∀ c f, (c < dstLoc.channel ∨ dstLoc.channel + n ≤ c ∨ f < dstLoc.frame) → out.sample? c f = dst.sample? c f := by
  obtain ⟨out, e1, e2, e3, e4, e5⟩ := convert_spec blend dst src srcLoc dstLoc n hs hd hw hsc hsf hdc hdf
  refine ⟨out, e1, e2, ?_, ?_⟩
  · intro k i hk hi
    have h := e5 (dstLoc.channel + k) (dstLoc.frame + i)
    rw [if_pos (by omega)] at h
    have h0 : (0 : ℝ) ≤ (i : ℝ) * ((src.sampleRate : ℝ) / dst.sampleRate) :=
      mul_nonneg (Nat.cast_nonneg _) (div_nonneg (Nat.cast_nonneg _) (Nat.cast_nonneg _))
    have hp := onPolygon_blend (fun j => src.sampleOr0 (srcLoc.channel + k) (srcLoc.frame + j))
      (src.frameCount - srcLoc.frame) (by omega) _ h0
    show OnPolygon _ _ _ ((out.sample? (dstLoc.channel + k) (dstLoc.frame + i)).getD 0)
    rw [h]
    unfold convertedAt
    simp only [Nat.add_sub_cancel_left]
    generalize (i : ℝ) * ((src.sampleRate : ℝ) / dst.sampleRate) = p at hp ⊢
    obtain ⟨x, hx, _⟩ := getSample_eq src hs (srcLoc.channel + k)
      (srcLoc.frame + min ⌊p⌋₊ (src.frameCount - srcLoc.frame - 1)) (by omega) (by omega)
    obtain ⟨y, hy, _⟩ := getSample_eq src hs (srcLoc.channel + k)
      (srcLoc.frame + min ⌈p⌉₊ (src.frameCount - srcLoc.frame - 1)) (by omega) (by omega)
    simp only [sampleOr0, hx, hy, Option.getD_some] at hp
    rw [hx, hy]
    exact hp
  · intro c f h
    rw [e5]
    by_cases hf : f < dst.frameCount
    · rw [if_neg (by omega)]
    · rw [if_neg (by omega)]

/-- C70: conversion never leaves the range of the source. -/
theorem C70_between (dst src out : Buf ℝ) (srcLoc dstLoc : Loc) (n : Nat)
    (hs : src.WF) (hd : dst.WF) (hw : dst.Writable) (hsc : srcLoc.channel + n ≤ src.channelCount)
    (hsf : srcLoc.frame < src.frameCount) (hdc : dstLoc.channel + n ≤ dst.channelCount)
    (hdf : dstLoc.frame ≤ dst.frameCount) (hout : dst.sampleRateConvertFrom blend src srcLoc dstLoc n = .ok out)
    (lo hi : ℝ) (k i : Nat) (hk : k < n) (hi' : dstLoc.frame + i < dst.frameCount)
    (hx : ∀ f, f < src.frameCount → lo ≤ src.sampleOr0 (srcLoc.channel + k) f ∧ src.sampleOr0 (srcLoc.channel + k) f ≤ hi) :
    lo ≤ out.sampleOr0 (dstLoc.channel + k) (dstLoc.frame + i) ∧
      out.sampleOr0 (dstLoc.channel + k) (dstLoc.frame + i) ≤ hi := by
  obtain ⟨out', e1, _, e3, _⟩ := C70_interpolates dst src srcLoc dstLoc n hs hd hw hsc hsf hdc hdf
  rw [hout] at e1
  cases e1
  exact (e3 k i hk hi').between (by omega) (fun j hj => hx _ (by omega))

/-- C70: a ramp is converted to a ramp, up to the last sample of the source. -/
theorem C70_ramp (dst src out : Buf ℝ) (srcLoc dstLoc : Loc) (n : Nat)
    (hs : src.WF) (hd : dst.WF) (hw : dst.Writable) (hsc : srcLoc.channel + n ≤ src.channelCount)
    (hsf : srcLoc.frame < src.frameCount) (hdc : dstLoc.channel + n ≤ dst.channelCount)
    (hdf : dstLoc.frame ≤ dst.frameCount) (hout : dst.sampleRateConvertFrom blend src srcLoc dstLoc n = .ok out)
    (a b : ℝ) (k i : Nat) (hk : k < n) (hi' : dstLoc.frame + i < dst.frameCount)
    (hx : ∀ j, srcLoc.frame + j < src.frameCount → src.sampleOr0 (srcLoc.channel + k) (srcLoc.frame + j) = a + b * j)
    (hend : (i : ℝ) * ((src.sampleRate : ℝ) / dst.sampleRate) ≤ ((src.frameCount - srcLoc.frame : Nat) : ℝ) - 1) :
    out.sampleOr0 (dstLoc.channel + k) (dstLoc.frame + i) =
      a + b * ((i : ℝ) * ((src.sampleRate : ℝ) / dst.sampleRate)) := by
  obtain ⟨out', e1, _, e3, _⟩ := C70_interpolates dst src srcLoc dstLoc n hs hd hw hsc hsf hdc hdf
  rw [hout] at e1
  cases e1
  have h0 : (0 : ℝ) ≤ (i : ℝ) * ((src.sampleRate : ℝ) / dst.sampleRate) :=
    mul_nonneg (Nat.cast_nonneg _) (div_nonneg (Nat.cast_nonneg _) (Nat.cast_nonneg _))
  have h := e3 k i hk hi'
  generalize (i : ℝ) * ((src.sampleRate : ℝ) / dst.sampleRate) = p at h h0 hend ⊢
  rcases h with ⟨h1, h2⟩ | ⟨h1, h2⟩ | ⟨m, t, hm, ht0, ht1, hp, h2⟩
  · simp only at h2
    rw [h2, hx 0 (by omega)]
    have : p = 0 := by linarith
    rw [this]; simp
  · simp only at h2
    rw [h2, hx (src.frameCount - srcLoc.frame - 1) (by omega)]
    have : p = ((src.frameCount - srcLoc.frame : Nat) : ℝ) - 1 := by linarith
    rw [this, Nat.cast_sub (by omega : 1 ≤ src.frameCount - srcLoc.frame)]
    simp
  · simp only at h2
    rw [h2, hx m (by omega), hx (m + 1) (by omega), hp]
    push_cast; ring

/-- C70: at the same rate conversion copies. -/
theorem C70_same_rate (dst src : Buf ℝ) (n : Nat)
    (hs : src.WF) (hd : dst.WF) (hw : dst.Writable) (hsc : n ≤ src.channelCount)
    (hsf : 0 < src.frameCount) (hdc : n ≤ dst.channelCount) (hfr : dst.frameCount ≤ src.frameCount)
    (hr : src.sampleRate = dst.sampleRate) (h0 : 0 < dst.sampleRate) :
    ∃ out, dst.sampleRateConvertFrom blend src Loc.origin Loc.origin n = .ok out ∧
      ∀ c f, c < n → f < dst.frameCount → out.sampleOr0 c f = src.sampleOr0 c f := by
  obtain ⟨out, e1, _, e3, _⟩ := C70_interpolates dst src Loc.origin Loc.origin n hs hd hw
    (by simp only [Loc.origin]; omega) hsf (by simp only [Loc.origin]; omega) (Nat.zero_le _)
  refine ⟨out, e1, ?_⟩
  intro c f hc hf
  have h := e3 c f hc (by simp only [Loc.origin]; omega)
  simp only [Loc.origin, Nat.zero_add, Nat.sub_zero] at h
  have hne : (dst.sampleRate : ℝ) ≠ 0 := by exact_mod_cast h0.ne'
  rw [hr, div_self hne, mul_one] at h
  refine h.unique hsf ?_
  by_cases hl : f + 1 < src.frameCount
  · exact Or.inr (Or.inr ⟨f, 0, hl, le_refl _, zero_le_one, by ring, by ring⟩)
  · have hf1 : f = src.frameCount - 1 := by omega
    refine Or.inr (Or.inl ⟨?_, by rw [hf1]⟩)
    have : src.frameCount ≤ f + 1 := by omega
    have : (src.frameCount : ℝ) ≤ (f : ℝ) + 1 := by exact_mod_cast this
    linarith

/-- C70: converting to a multiple of the rate and back gives the samples back. -/
theorem C70_round_trip (a b c : Buf ℝ) (m n : Nat) (ha : a.WF) (hb : b.WF) (hbw : b.Writable) (hc : c.WF)
    (hcw : c.Writable) (hna : n ≤ a.channelCount) (hnb : n ≤ b.channelCount) (hnc : n ≤ c.channelCount)
    (hm : 0 < m) (hr : b.sampleRate = a.sampleRate * m) (hr' : c.sampleRate = a.sampleRate) (h0 : 0 < a.sampleRate)
    (hf : 0 < a.frameCount) (hfb : m * (a.frameCount - 1) < b.frameCount) (hfc : c.frameCount ≤ a.frameCount) :
    ∃ up down, b.sampleRateConvertFrom blend a Loc.origin Loc.origin n = .ok up ∧
      c.sampleRateConvertFrom blend up Loc.origin Loc.origin n = .ok down ∧
      ∀ ch f, ch < n → f < c.frameCount → down.sampleOr0 ch f = a.sampleOr0 ch f := by
  obtain ⟨up, u1, u2, u3, _⟩ := C70_interpolates b a Loc.origin Loc.origin n ha hb hbw
    (by simp only [Loc.origin]; omega) hf (by simp only [Loc.origin]; omega) (Nat.zero_le _)
  obtain ⟨up', u1', _, u4, _, _⟩ := convert_spec blend b a Loc.origin Loc.origin n ha hb hbw
    (by simp only [Loc.origin]; omega) hf (by simp only [Loc.origin]; omega) (Nat.zero_le _)
  rw [u1] at u1'
  cases u1'
  have hcc := u2.channelCount
  have hfc' := u2.frameCount
  have hsr := u2.sampleRate
  obtain ⟨down, d1, _, d3, _⟩ := C70_interpolates c up Loc.origin Loc.origin n u4 hc hcw
    (by simp only [Loc.origin]; omega) (by simp only [Loc.origin]; omega) (by simp only [Loc.origin]; omega) (Nat.zero_le _)
  refine ⟨up, down, u1, d1, ?_⟩
  intro ch f hch hfr
  have hmR : (m : ℝ) ≠ 0 := by exact_mod_cast hm.ne'
  have haR : (a.sampleRate : ℝ) ≠ 0 := by exact_mod_cast h0.ne'
  have hle : m * f ≤ m * (a.frameCount - 1) := Nat.mul_le_mul_left _ (by omega)
  have hd := d3 ch f hch (by simp only [Loc.origin]; omega)
  have hu := u3 ch (m * f) hch (by simp only [Loc.origin]; omega)
  simp only [Loc.origin, Nat.zero_add, Nat.sub_zero] at hd hu
  have r1 : ((m * f : Nat) : ℝ) * ((a.sampleRate : ℝ) / b.sampleRate) = f := by
    rw [hr]; push_cast; field_simp
  have r2 : (f : ℝ) * ((up.sampleRate : ℝ) / c.sampleRate) = ((m * f : Nat) : ℝ) := by
    rw [show up.sampleRate = b.sampleRate by omega, hr, hr']; push_cast; field_simp
  rw [r1] at hu
  rw [r2] at hd
  have node : ∀ (x : Nat → ℝ) (N i : Nat), i < N → OnPolygon x N i (x i) := by
    intro x N i hi
    by_cases hl : i + 1 < N
    · exact Or.inr (Or.inr ⟨i, 0, hl, le_refl _, zero_le_one, by ring, by ring⟩)
    · have hf1 : i = N - 1 := by omega
      refine Or.inr (Or.inl ⟨?_, by rw [← hf1]⟩)
      have : N ≤ i + 1 := by omega
      have : (N : ℝ) ≤ (i : ℝ) + 1 := by exact_mod_cast this
      linarith
  rw [hd.unique (by omega) (node _ _ (m * f) (by omega))]
  exact hu.unique hf (node _ _ f (by omega))

/-- C70: an empty source stops the audio thread as soon as there is anything to fill. -/
theorem C70_empty_source_violated (dst src : Buf ℝ) (srcLoc dstLoc : Loc) (n : Nat)
    (hs : src.WF) (hd : dst.WF) (hw : dst.Writable) (hsc : srcLoc.channel < src.channelCount)
    (hsf : srcLoc.frame = src.frameCount) (hdc : dstLoc.channel < dst.channelCount)
    (hdf : dstLoc.frame < dst.frameCount) :
    dst.sampleRateConvertFrom blend src srcLoc dstLoc (n + 1) = .error .panic :=
  convert_empty blend dst src srcLoc dstLoc n hs hd hw hsc hsf hdc hdf

example : (owned [0] 1 1 48000 : Buf ℝ).sampleRateConvertFrom blend (owned [] 1 0 44100) Loc.origin Loc.origin 1 =
    .error .panic :=
  C70_empty_source_violated (owned [0] 1 1 48000) (owned [] 1 0 44100) Loc.origin Loc.origin 0 rfl rfl trivial
    (by decide) rfl (by decide) (by decide)

/-- A source and destinations for the examples. -/
noncomputable def srcExample : Buf ℝ := owned [1, 3] 1 2 10
/-- A destination at twice the rate. -/
noncomputable def dstExample : Buf ℝ := owned [0, 0, 0, 0] 1 4 20

example : ∃ out, dstExample.sampleRateConvertFrom blend srcExample Loc.origin Loc.origin 1 = .ok out ∧
    out.sampleOr0 0 1 = 2 ∧ out.sampleOr0 0 3 = 3 := by
  obtain ⟨out, e1, _, e3, _⟩ := C70_interpolates dstExample srcExample Loc.origin Loc.origin 1 rfl rfl trivial
    (by decide) (by decide) (by decide) (by decide)
  refine ⟨out, e1, ?_, ?_⟩
  · have h := e3 0 1 (by decide) (by decide)
    refine h.unique (by decide) (Or.inr (Or.inr ⟨0, 1 / 2, by decide, by norm_num, by norm_num, ?_, ?_⟩))
    · simp [srcExample, dstExample, sampleRate]; norm_num
    · simp [srcExample, sampleOr0, sample?, Loc.origin]; norm_num
  · have h := e3 0 3 (by decide) (by decide)
    refine h.unique (by decide) (Or.inr (Or.inl ⟨?_, ?_⟩))
    · simp [srcExample, dstExample, sampleRate, frameCount, Loc.origin]; norm_num
    · simp [srcExample, sampleOr0, sample?, Loc.origin, frameCount]

example : ∃ up down, dstExample.sampleRateConvertFrom blend srcExample Loc.origin Loc.origin 1 = .ok up ∧
    (owned [0, 0] 1 2 10 : Buf ℝ).sampleRateConvertFrom blend up Loc.origin Loc.origin 1 = .ok down ∧
    down.sampleOr0 0 1 = 3 := by
  obtain ⟨up, down, h1, h2, h3⟩ := C70_round_trip srcExample dstExample (owned [0, 0] 1 2 10) 2 1 rfl rfl trivial rfl
    trivial (by decide) (by decide) (by decide) (by decide) rfl rfl (by decide) (by decide) (by decide) (by decide)
  refine ⟨up, down, h1, h2, ?_⟩
  rw [h3 0 1 (by decide) (by decide)]
  simp [srcExample, sampleOr0, sample?]

end Buf
end Rawdio
