import Mathlib.Tactic.Linarith
import Mathlib.Tactic.NormNum
import Verif.Lemmas.Pan

/-! # Properties of the pan node (C39, C67) -/

namespace Rawdio
namespace Pan

open Buf

/-- C39, gains: for every pan in range neither side is amplified, the louder side is untouched, the centre
leaves both sides alone, hard left silences the right side and hard right the left side, and mirroring the pan
swaps the sides; away from the centre the further side falls strictly. -/
theorem C39_gains (pan : ℝ) (h : InRange pan) :
    (0 ≤ leftGain pan ∧ leftGain pan ≤ 1) ∧ (0 ≤ rightGain pan ∧ rightGain pan ≤ 1) ∧
    max (leftGain pan) (rightGain pan) = 1 ∧
    leftGain (-pan) = rightGain pan ∧ rightGain (-pan) = leftGain pan ∧
    (leftGain pan = 0 ↔ pan = 1) ∧ (rightGain pan = 0 ↔ pan = -1) ∧
    (leftGain pan = 1 ↔ pan ≤ 0) ∧ (rightGain pan = 1 ↔ 0 ≤ pan) := by
  obtain ⟨h1, h2⟩ := h
  unfold leftGain rightGain
  have e1 : (1 : ℝ) - -pan = 1 + pan := by ring
  have e2 : (1 : ℝ) + -pan = 1 - pan := by ring
  rw [e1, e2]
  rcases le_total pan 0 with hp | hp
  · rw [min_eq_right (by linarith : (1 : ℝ) ≤ 1 - pan), min_eq_left (by linarith : (1 : ℝ) + pan ≤ 1)]
    refine ⟨⟨by linarith, by linarith⟩, ⟨by linarith, by linarith⟩, max_eq_left (by linarith), rfl, rfl, ?_, ?_, ?_, ?_⟩
    · constructor <;> intro h <;> linarith
    · constructor <;> intro h <;> linarith
    · exact ⟨fun _ => hp, fun _ => rfl⟩
    · constructor <;> intro h <;> linarith
  · rw [min_eq_left (by linarith : (1 : ℝ) - pan ≤ 1), min_eq_right (by linarith : (1 : ℝ) ≤ 1 + pan)]
    refine ⟨⟨by linarith, by linarith⟩, ⟨by linarith, by linarith⟩, max_eq_right (by linarith), rfl, rfl, ?_, ?_, ?_, ?_⟩
    · constructor <;> intro h <;> linarith
    · constructor <;> intro h <;> linarith
    · constructor <;> intro h <;> linarith
    · exact ⟨fun _ => hp, fun _ => rfl⟩

example : InRange (1 / 2) := by unfold InRange; norm_num

/-- C39: panning further right never makes the left side louder or the right side quieter. -/
theorem C39_monotone (a b : ℝ) (h : a ≤ b) : leftGain b ≤ leftGain a ∧ rightGain a ≤ rightGain b :=
  ⟨min_le_min_right _ (by linarith), min_le_min_right _ (by linarith)⟩

/-- C39: a stereo block comes out with each side times its gain at each frame. -/
theorem C39_block (panValues : List ℝ) (input output : Buf ℝ) (hi : input.WF) (ho : output.WF)
    (hw : output.Writable) (hci : input.channelCount = 2) (hco : output.channelCount = 2)
    (hf : input.frameCount = output.frameCount) (hp : output.frameCount ≤ panValues.length) :
    ∃ out, processAudio panValues input output = .ok out ∧ output.SameShape out ∧
      ∀ f, f < output.frameCount →
        out.sample? 0 f = some (input.sampleOr0 0 f * leftGain (panValues.getD f 0)) ∧
        out.sample? 1 f = some (input.sampleOr0 1 f * rightGain (panValues.getD f 0)) := by
  have hg : ∀ c < 2, ∀ f < output.frameCount, input.getSample ⟨c, f⟩ = .ok (input.sampleOr0 c f) := by
    intro c hc f hf'
    obtain ⟨v, hv, hv'⟩ := getSample_eq input hi c f (by omega) (by omega)
    unfold sampleOr0
    rw [hv, hv']
    rfl
  obtain ⟨out, e1, e2, _, _, e5⟩ := frames_ok panValues input output ho hw (by omega) hp
    (input.sampleOr0 0) (input.sampleOr0 1) (hg 0 (by omega)) (hg 1 (by omega)) output.frameCount (le_refl _)
  refine ⟨out, e1, e2, ?_⟩
  intro f hf'
  refine ⟨?_, ?_⟩
  · rw [e5 0 f (by omega) hf', if_pos ⟨hf', rfl⟩]
  · rw [e5 1 f (by omega) hf', if_neg (by omega), if_pos ⟨hf', rfl⟩]

/-- C39: a block with the pan in range is nowhere louder than its input. -/
theorem C39_never_amplifies (panValues : List ℝ) (input output out : Buf ℝ) (hi : input.WF) (ho : output.WF)
    (hw : output.Writable) (hci : input.channelCount = 2) (hco : output.channelCount = 2)
    (hf : input.frameCount = output.frameCount) (hp : output.frameCount ≤ panValues.length)
    (hr : ∀ p ∈ panValues, InRange p) (hout : processAudio panValues input output = .ok out) (c f : Nat) (hc : c < 2) :
    |out.sampleOr0 c f| ≤ |input.sampleOr0 c f| := by
  obtain ⟨out', e1, e2, e3⟩ := C39_block panValues input output hi ho hw hci hco hf hp
  rw [hout] at e1
  cases e1
  by_cases hf' : f < output.frameCount
  · have hpan : InRange (panValues.getD f 0) := by
      rw [List.getD_eq_getElem?_getD, List.getElem?_eq_getElem (by omega : f < panValues.length)]
      exact hr _ (List.getElem_mem _)
    obtain ⟨⟨g1, g2⟩, ⟨g3, g4⟩, _⟩ := C39_gains _ hpan
    have : c = 0 ∨ c = 1 := by omega
    rcases this with rfl | rfl
    · have h := (e3 f hf').1
      unfold sampleOr0 at h ⊢
      rw [h, Option.getD_some, abs_mul, abs_of_nonneg g1]
      exact mul_le_of_le_one_right (abs_nonneg _) g2
    · have h := (e3 f hf').2
      unfold sampleOr0 at h ⊢
      rw [h, Option.getD_some, abs_mul, abs_of_nonneg g3]
      exact mul_le_of_le_one_right (abs_nonneg _) g4
  · have : out.sample? c f = none := sample?_eq_none out c f (by rw [← e2.frameCount]; omega)
    unfold sampleOr0
    rw [this, Option.getD_none, abs_zero]
    exact abs_nonneg _

/-- Input and output for the examples. -/
noncomputable def stereoIn : Buf ℝ := owned [1, 2, 3, 4] 2 2 48000

/-- An output for the examples. -/
noncomputable def stereoOut : Buf ℝ := owned [0, 0, 0, 0] 2 2 48000

example : ∃ out, processAudio [0, 1] stereoIn stereoOut = .ok out ∧ out.sample? 0 0 = some 1 ∧
    out.sample? 0 1 = some 0 ∧ out.sample? 1 1 = some 4 := by
  obtain ⟨out, e1, _, e3⟩ := C39_block [0, 1] stereoIn stereoOut rfl rfl trivial rfl rfl rfl (le_refl _)
  have h0 := e3 0 (by show 0 < 2; omega)
  have h1 := e3 1 (by show 1 < 2; omega)
  refine ⟨out, e1, ?_, ?_, ?_⟩
  · rw [h0.1]; simp [sampleOr0, stereoIn, sample?, leftGain]
  · rw [h1.1]; simp [leftGain]
  · rw [h1.2]; simp [sampleOr0, stereoIn, sample?, rightGain]

/-- The input the graph hands to a node with one input: the first channel of a longer buffer,
`realtime/dsp_graph.rs:214-218`. -/
def monoSlice (pool : Buf ℝ) (frames : Nat) : Buf ℝ := slice pool ⟨0, 0, 1, frames⟩ false

theorem monoSlice_get (pool : Buf ℝ) (hw : pool.WF) (frames : Nat) (hfr : frames ≤ pool.frameCount) (c f : Nat)
    (hc : c < pool.channelCount) (hf : f < frames) :
    (monoSlice pool frames).getSample ⟨c, f⟩ = .ok (pool.sampleOr0 c f) := by
  obtain ⟨l, hl, hlen, hget⟩ := channelData_spec pool hw ⟨c, f⟩ hc (by simp only; omega)
  simp only at hlen hget
  unfold getSample monoSlice
  rw [channelData_slice]
  simp only [Loc.offsetFrames, Loc.offsetChannels, Nat.add_zero, hl, bind, Except.bind]
  rw [if_pos (by omega), sliceRange_ok (by omega) (by omega)]
  simp only [List.drop_zero, Nat.sub_zero]
  have h0 := hget 0
  cases l with
  | nil => simp only [List.length_nil] at hlen; omega
  | cons x xs =>
    obtain ⟨k, hk⟩ : ∃ k, frames - f = k + 1 := ⟨frames - f - 1, by omega⟩
    rw [hk, List.take_succ_cons]
    simp only [firstOf]
    unfold sampleOr0
    simp only [List.getElem?_cons_zero, Nat.add_zero] at h0
    rw [← h0]
    rfl

/-- C67 is violated: with one input channel the left output is the input times its gain, but the right output
is whatever is in the next channel of the buffer behind the input. -/
theorem C67_mono_input_violated (panValues : List ℝ) (pool output : Buf ℝ) (hi : pool.WF) (ho : output.WF)
    (hw : output.Writable) (hci : 2 ≤ pool.channelCount) (hco : output.channelCount = 2)
    (hf : output.frameCount ≤ pool.frameCount) (hp : output.frameCount ≤ panValues.length) :
    ∃ out, processAudio panValues (monoSlice pool output.frameCount) output = .ok out ∧
      ∀ f, f < output.frameCount →
        out.sample? 0 f = some (pool.sampleOr0 0 f * leftGain (panValues.getD f 0)) ∧
        out.sample? 1 f = some (pool.sampleOr0 1 f * rightGain (panValues.getD f 0)) := by
  obtain ⟨out, e1, e2, _, _, e5⟩ := frames_ok panValues (monoSlice pool output.frameCount) output ho hw (by omega) hp
    (pool.sampleOr0 0) (pool.sampleOr0 1) (fun f h => monoSlice_get pool hi _ hf 0 f (by omega) h)
    (fun f h => monoSlice_get pool hi _ hf 1 f (by omega) h) output.frameCount (le_refl _)
  refine ⟨out, e1, ?_⟩
  intro f hf'
  refine ⟨?_, ?_⟩
  · rw [e5 0 f (by omega) hf', if_pos ⟨hf', rfl⟩]
  · rw [e5 1 f (by omega) hf', if_neg (by omega), if_pos ⟨hf', rfl⟩]

/-- C67 is violated, concretely: a mono signal panned hard right is lost. -/
theorem C67_mono_lost : ∃ out, processAudio [1] (monoSlice (owned [5, 0] 2 1 48000) 1) (owned [0, 0] 2 1 48000) = .ok out ∧
    out.sample? 0 0 = some 0 ∧ out.sample? 1 0 = some 0 := by
  obtain ⟨out, e1, e2⟩ := C67_mono_input_violated [1] (owned [5, 0] 2 1 48000) (owned [0, 0] 2 1 48000) rfl rfl trivial
    (le_refl _) rfl (le_refl _) (le_refl _)
  have h := e2 0 (by show 0 < 1; omega)
  refine ⟨out, e1, ?_, ?_⟩
  · rw [h.1]; simp [leftGain]
  · rw [h.2]; simp [sampleOr0, sample?]

/-- C67, for the left output: it carries the mono input times its gain.  Missing for the full claim: the right
output. -/
theorem C67_mono_input_partial (panValues : List ℝ) (pool output out : Buf ℝ) (hi : pool.WF) (ho : output.WF)
    (hw : output.Writable) (hci : 2 ≤ pool.channelCount) (hco : output.channelCount = 2)
    (hf : output.frameCount ≤ pool.frameCount) (hp : output.frameCount ≤ panValues.length)
    (hout : processAudio panValues (monoSlice pool output.frameCount) output = .ok out) (f : Nat)
    (hf' : f < output.frameCount) :
    out.sample? 0 f = some ((monoSlice pool output.frameCount).sampleOr0 0 f * leftGain (panValues.getD f 0)) := by
  obtain ⟨out', e1, e2⟩ := C67_mono_input_violated panValues pool output hi ho hw hci hco hf hp
  rw [hout] at e1
  cases e1
  rw [(e2 f hf').1]
  unfold sampleOr0 monoSlice
  conv_rhs => rw [sample?, if_pos ⟨by simp only; omega, hf'⟩]
  simp only [Nat.add_zero]

example : ∃ out, processAudio [0] (monoSlice (owned [5, 7] 2 1 48000) 1) (owned [0, 0] 2 1 48000) = .ok out ∧
    out.sample? 0 0 = some 5 ∧ out.sample? 1 0 = some 7 := by
  obtain ⟨out, e1, e2⟩ := C67_mono_input_violated [0] (owned [5, 7] 2 1 48000) (owned [0, 0] 2 1 48000) rfl rfl trivial
    (le_refl _) rfl (le_refl _) (le_refl _)
  have h := e2 0 (by show 0 < 1; omega)
  refine ⟨out, e1, ?_, ?_⟩
  · rw [h.1]; simp [leftGain, sampleOr0, sample?]
  · rw [h.2]; simp [rightGain, sampleOr0, sample?]

/-- C67: when the buffer behind the input has one channel only, the audio thread stops at the first frame. -/
theorem C67_mono_panics (p x a b : ℝ) (ps : List ℝ) :
    processAudio (p :: ps) (monoSlice (owned [x] 1 1 48000) 1) (owned [a, b] 2 1 48000) = .error .panic := by
  unfold processAudio
  rfl

end Pan
end Rawdio
