import Mathlib.Analysis.SpecialFunctions.Pow.Real
import Verif.Spec.Grid
import Verif.Model.Waveshaper

/-!
# Spec of interpolation

Independent of the model: the graph of the polygon through the points `(0, x 0)`, ..., `(n-1, x (n-1))`,
continued by constants on both sides.
-/

namespace Rawdio

/-- `y` is the value of the polygon at `p` (the documentation of `buffer/audio_buffer.rs:303-305`:
"interpolation-based"; `effects/waveshaper/shape.rs`). -/
def OnPolygon (x : Nat → ℝ) (n : Nat) (p y : ℝ) : Prop :=
  (p ≤ 0 ∧ y = x 0) ∨ ((n : ℝ) - 1 ≤ p ∧ y = x (n - 1)) ∨
    ∃ (k : Nat) (t : ℝ), k + 1 < n ∧ 0 ≤ t ∧ t ≤ 1 ∧ p = k + t ∧ y = (1 - t) * x k + t * x (k + 1)

/-- The input gain for a position of the overdrive: 0 dB to 12 dB (`effects/waveshaper/parameters.rs:4-5`). -/
noncomputable def drive (overdrive : ℝ) : ℝ := (10 : ℝ) ^ (12 * overdrive / 20)

/-- What the waveshaper makes of a sample `x`: the sample is driven, shaped by the polygon through the curve at
511 points of [-1,1], brought back to its level and mixed with the input. -/
def Shaped (curve : ℝ → ℝ) (overdrive mix x v : ℝ) : Prop :=
  ∃ y, OnPolygon (fun i => curve (-1 + 2 * i / 510)) 511 ((x * drive overdrive + 1) / 2 * 510) y ∧
    v = mix * (y / drive overdrive) + (1 - mix) * x

open Classical in
/-- The value of the polygon at `p`. -/
noncomputable def polygonAt (x : Nat → ℝ) (n : Nat) (p : ℝ) : ℝ :=
  if p ≤ 0 then x 0 else if (n : ℝ) - 1 ≤ p then x (n - 1)
  else (1 - (p - ⌊p⌋₊)) * x ⌊p⌋₊ + (p - ⌊p⌋₊) * x (⌊p⌋₊ + 1)

/-- What the waveshaper makes of a sample `x` (see `Shaped`). -/
noncomputable def shapedSample (curve : ℝ → ℝ) (overdrive mix x : ℝ) : ℝ :=
  mix * (polygonAt (fun i => curve (-1 + 2 * i / 510)) 511 ((x * drive overdrive + 1) / 2 * 510) / drive overdrive) +
    (1 - mix) * x

/-- A block for the waveshaper: values of the parameters, input and output buffer. -/
structure ShaperBlock where
  overdrive : List ℝ
  mix : List ℝ
  input : Buf (Option ℝ)
  output : Buf (Option ℝ)

/-- A block as the graph hands it to a node (`realtime/dsp_graph.rs:196-243`): not empty, not longer than announced,
input and output alike, a value of each parameter for each frame, the parameters in range
(`effects/waveshaper/parameters.rs`). -/
structure ShaperBlock.Ok (b : ShaperBlock) (sampleRate maximumFrameCount : Nat) : Prop where
  inputWF : b.input.WF
  outputWF : b.output.WF
  writable : b.output.Writable
  channels : b.input.channelCount = b.output.channelCount
  frames : b.input.frameCount = b.output.frameCount
  nonempty : 0 < b.output.frameCount
  short : b.output.frameCount ≤ maximumFrameCount
  rate : b.output.sampleRate = sampleRate
  overdriveLength : b.overdrive.length = b.output.frameCount
  mixLength : b.mix.length = b.output.frameCount
  overdriveRange : ∀ o ∈ b.overdrive, 0 ≤ o ∧ o ≤ 1
  mixRange : ∀ m ∈ b.mix, 0 ≤ m ∧ m ≤ 1

/-- A sequence of blocks through one waveshaper. -/
noncomputable def Waveshaper.run (w : Waveshaper) : List ShaperBlock → Res (List (Buf (Option ℝ)))
  | [] => .ok []
  | b :: bs => do
    let (w, out) ← w.processAudio b.overdrive b.mix b.input b.output
    let outs ← w.run bs
    return out :: outs

end Rawdio
