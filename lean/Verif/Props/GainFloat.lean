import Verif.Lemmas.GainFloat

/-!
# Properties of gain with `f32` samples (C109)
-/

namespace Rawdio
namespace Gain

/-- C109: the gain node gives the product of every sample of the input with the gain of its frame, with an error of at
most `2^-22 max(1, |g|) |x| + 2^-150`, whatever the other gains of the block are and for every alignment. -/
theorem C109_near (al : Nat → Nat × Nat) (gain : List Sample32) (input output : Buf Sample32)
    (hv : ValidBlock input output) (hg : gain.length = output.frameCount) :
    ∃ b', processAudio32 al gain input output = .ok b' ∧ output.SameShape b' ∧
      ∀ c f x, c < output.channelCount → c < input.channelCount → f < output.frameCount → input.sample? c f = some x →
        ∃ g y, gain[f]? = some g ∧ b'.sample? c f = some y ∧
          |y.1 - x.1 * g.1| ≤ |x.1| * (max 1 |g.1| * (1 / 2 ^ 22)) + 1 / 2 ^ 150 := by
  obtain ⟨b', h1, h2, h3⟩ := processAudio32_ok al gain input output hv.inWF hv.outWF hv.writable hv.enough hg
  refine ⟨b', h1, h2, ?_⟩
  intro c f x c1 c2 f1 hx
  obtain ⟨g, y, e1, e2, e3⟩ := h3 c f x c1 c2 f1 hx
  exact ⟨g, y, e1, e2, gain_error (List.mem_of_getElem? e1) e3⟩

/-- C109: the same of `apply_gain` itself, for every buffer that can be written: the oscillators, the filters and the
compressor use it too. -/
theorem C109_apply_gain (al : Nat → Nat × Nat) (gain : List Sample32) (b : Buf Sample32) (hb : b.WF) (hw : b.Writable)
    (hg : gain.length = b.frameCount) :
    ∃ b', applyGain32 al gain b = .ok b' ∧ b.SameShape b' ∧
      ∀ c f x, c < b.channelCount → f < b.frameCount → b.sample? c f = some x →
        ∃ g y, gain[f]? = some g ∧ b'.sample? c f = some y ∧
          |y.1 - x.1 * g.1| ≤ |x.1| * (max 1 |g.1| * (1 / 2 ^ 22)) + 1 / 2 ^ 150 := by
  obtain ⟨b', h1, h2, h3⟩ := applyGain32_ok al gain b hb hw hg
  refine ⟨b', h1, h2, ?_⟩
  intro c f x c1 f1 hx
  obtain ⟨g, y, e1, e2, e3⟩ := h3 c f x c1 f1 hx
  exact ⟨g, y, e1, e2, gain_error (List.mem_of_getElem? e1) e3⟩

/-- C109: a gain between -1 and 1 never makes a sample larger, 0 gives silence and 1 gives the sample itself. -/
theorem C109_bounded (al : Nat → Nat × Nat) (gain : List Sample32) (input output : Buf Sample32)
    (hv : ValidBlock input output) (hg : gain.length = output.frameCount) (b' : Buf Sample32)
    (hb : processAudio32 al gain input output = .ok b') (c f : Nat) (x y g : Sample32) (hc : c < output.channelCount)
    (hc' : c < input.channelCount) (hf : f < output.frameCount) (hx : input.sample? c f = some x)
    (hgf : gain[f]? = some g) (hy : b'.sample? c f = some y) :
    (|g.1| ≤ 1 → |y.1| ≤ |x.1|) ∧ (g = 0 → y = 0) ∧ (g = 1 → y = x) := by
  obtain ⟨b, h1, h2, h3⟩ := processAudio32_ok al gain input output hv.inWF hv.outWF hv.writable hv.enough hg
  rw [hb] at h1
  injection h1 with h1
  subst h1
  obtain ⟨g', y', e1, e2, e3⟩ := h3 c f x hc hc' hf hx
  rw [hgf] at e1
  injection e1 with e1
  subst e1
  rw [hy] at e2
  injection e2 with e2
  subst e2
  have hmem : g ∈ gain := List.mem_of_getElem? hgf
  split_ifs at e3 with hz ho
  · refine ⟨fun _ => by rw [e3, Sample32.zero_val, abs_zero]; exact abs_nonneg _, fun _ => e3, fun h => ?_⟩
    have := Sample32.relativeEq_zero.mp (hz g hmem)
    rw [h, Sample32.one_val] at this
    norm_num at this
  · refine ⟨fun _ => by rw [e3], fun h => ?_, fun _ => e3⟩
    have := Sample32.relativeEq_one (ho g hmem)
    rw [h, Sample32.zero_val] at this
    norm_num at this
  · refine ⟨fun h => by rw [e3]; exact Sample32.mul_le x g h, fun h => by rw [e3, h, mul_zero], fun h => by
      rw [e3, h, mul_one]⟩

/-- C109, partial: a frame whose gain is not within the tolerance of 0 or 1, or is exactly 0 or 1, is the rounded product
of its sample and its gain, and so does not depend on the other frames of its block.  Missing: gains that are within the
tolerance (see `C109_local_violated`). -/
theorem C109_local_partial (al : Nat → Nat × Nat) (gain : List Sample32) (input output : Buf Sample32)
    (hv : ValidBlock input output) (hg : gain.length = output.frameCount) (b' : Buf Sample32)
    (hb : processAudio32 al gain input output = .ok b') (c f : Nat) (x g : Sample32) (hc : c < output.channelCount)
    (hc' : c < input.channelCount) (hf : f < output.frameCount) (hx : input.sample? c f = some x)
    (hgf : gain[f]? = some g)
    (hfar : g.1 = 0 ∨ g.1 = 1 ∨ 1 / 2 ^ 23 < |g.1| ∧ max 1 |g.1| * (1 / 2 ^ 22) < |g.1 - 1|) :
    ∃ y, b'.sample? c f = some y ∧ y.1 = Float32.round (x.1 * g.1) := by
  obtain ⟨b, h1, h2, h3⟩ := processAudio32_ok al gain input output hv.inWF hv.outWF hv.writable hv.enough hg
  rw [hb] at h1
  injection h1 with h1
  subst h1
  obtain ⟨g', y, e1, e2, e3⟩ := h3 c f x hc hc' hf hx
  rw [hgf] at e1
  injection e1 with e1
  subst e1
  refine ⟨y, e2, ?_⟩
  have hmem : g ∈ gain := List.mem_of_getElem? hgf
  split_ifs at e3 with hz ho
  · have h4 := Sample32.relativeEq_zero.mp (hz g hmem)
    rcases hfar with h | h | h
    · rw [e3, h, mul_zero, Float32.round_zero]; rfl
    · rw [h] at h4; norm_num at h4
    · linarith [h.1]
  · have h4 := Sample32.relativeEq_one (ho g hmem)
    rcases hfar with h | h | h
    · rw [h] at h4; norm_num at h4
    · rw [e3, h, mul_one, Sample32.round_of_rep x.2]
    · linarith [h.2]
  · rw [e3]; rfl

/-- The claim that what the gain node makes of a frame depends on its sample and its gain only, and not on the other
frames that are rendered in the same block. -/
def GainIsLocal : Prop :=
  ∀ (al : Nat → Nat × Nat) (gain gain' : List Sample32) (input output input' output' b b' : Buf Sample32),
    ValidBlock input output → ValidBlock input' output' → gain.length = output.frameCount →
    gain'.length = output'.frameCount → processAudio32 al gain input output = .ok b →
    processAudio32 al gain' input' output' = .ok b' → 0 < output.channelCount → 0 < input.channelCount →
    0 < output'.channelCount → 0 < input'.channelCount →
    gain[0]? = gain'[0]? → input.sample? 0 0 = input'.sample? 0 0 → b.sample? 0 0 = b'.sample? 0 0

/-- A gain of 2^-24, about -144 dB. -/
def faint32 : Sample32 := ⟨1 / 2 ^ 24, by have := Float32.rep_div 1 24 (by norm_num) (by norm_num); simpa using this⟩

/-- A mono buffer of `n` samples of 1. -/
def onesF32 (n : Nat) : Buf Sample32 := .owned (List.replicate n 1) 1 n 48000

theorem onesF32_block (n : Nat) (hn : 0 < n) : ValidBlock (onesF32 n) (onesF32 n) :=
  ⟨by simp [onesF32, Buf.WF], by simp [onesF32, Buf.WF], trivial, hn, le_refl _⟩

/-- C109 is violated: a faint gain is taken for 0 in a block of its own, and not next to a larger one. -/
theorem C109_local_violated : ¬ GainIsLocal := by
  intro hall
  obtain ⟨b, h1, _, h3⟩ := processAudio32_ok (fun _ => (0, 0)) [faint32] (onesF32 1) (onesF32 1) (onesF32_block 1 (by decide)).inWF
    (onesF32_block 1 (by decide)).outWF trivial (le_refl _) rfl
  obtain ⟨b', k1, _, k3⟩ := processAudio32_ok (fun _ => (0, 0)) [faint32, 1] (onesF32 2) (onesF32 2)
    (onesF32_block 2 (by decide)).inWF (onesF32_block 2 (by decide)).outWF trivial (le_refl _) rfl
  have := hall (fun _ => (0, 0)) [faint32] [faint32, 1] (onesF32 1) (onesF32 1) (onesF32 2) (onesF32 2) b b' (onesF32_block 1 (by decide))
    (onesF32_block 2 (by decide)) rfl rfl h1 k1 (by decide) (by decide) (by decide) (by decide) rfl rfl
  obtain ⟨g, y, e1, e2, e3⟩ := h3 0 0 1 (by decide) (by decide) (by decide) rfl
  obtain ⟨g', y', d1, d2, d3⟩ := k3 0 0 1 (by decide) (by decide) (by decide) rfl
  have hfaint : Sample32.relativeEq faint32 0 = true := by
    rw [Sample32.relativeEq_zero]
    norm_num [faint32]
  have hone : ¬ Sample32.relativeEq 1 0 = true := by
    rw [Sample32.relativeEq_zero, Sample32.one_val]
    norm_num
  have hfar : ¬ Sample32.relativeEq faint32 1 = true := by
    intro h
    have := Sample32.relativeEq_one h
    norm_num [faint32] at this
  rw [if_pos (by simpa using hfaint)] at e3
  rw [if_neg (by simp [hone]), if_neg (by simp [hfar]), one_mul] at d3
  injection d1 with d1
  rw [e2, d2, e3, d3, ← d1] at this
  injection this with this
  have := congrArg Subtype.val this
  rw [Sample32.zero_val] at this
  norm_num [faint32] at this

/-- A block that meets the hypotheses of `C109_near`, `C109_apply_gain`, `C109_bounded` and `C109_local_partial`. -/
example : ValidBlock (onesF32 2) (onesF32 2) ∧ [faint32, 1].length = (onesF32 2).frameCount ∧
    (∃ b', processAudio32 (fun _ => (0, 0)) [faint32, 1] (onesF32 2) (onesF32 2) = .ok b') ∧
    (onesF32 2).sample? 0 1 = some 1 ∧ [faint32, 1][1]? = some 1 ∧ (1 : Sample32).1 = 1 ∧ |(1 : Sample32).1| ≤ 1 := by
  obtain ⟨b', h, _⟩ := C109_near (fun _ => (0, 0)) [faint32, 1] (onesF32 2) (onesF32 2) (onesF32_block 2 (by decide)) rfl
  exact ⟨onesF32_block 2 (by decide), rfl, ⟨b', h⟩, rfl, rfl, rfl, by rw [Sample32.one_val, abs_one]⟩

end Gain
end Rawdio
