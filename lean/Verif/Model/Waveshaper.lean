import Mathlib.Data.Real.Archimedean
import Mathlib.Algebra.Order.Floor.Semiring
import Mathlib.Analysis.SpecialFunctions.Trigonometric.DerivHyp
import Verif.Model.Buffer
import Verif.Model.Level

/-!
# Sample rate conversion and the waveshaper

`buffer/audio_buffer.rs:306-342` and `effects/waveshaper/*.rs`, over exact reals.  A sample of the waveshaper
is `none` when it is not a number: a curve handed to the waveshaper can give such values.  Sample rates are
positive.  The assertion at `shape.rs:12` is only there in debug builds.
-/

namespace Rawdio

/-- Interpolation, `buffer/audio_buffer.rs:338-339` and `effects/waveshaper/shape.rs:1-3`. -/
noncomputable def blend (amount before after : ℝ) : ℝ := (1 - amount) * before + amount * after

/-- `blend` of samples that may not be numbers, `effects/waveshaper/shape.rs:1-3`. -/
noncomputable def blend? (amount : ℝ) (before after : Option ℝ) : Option ℝ := do
  let before ← before
  let after ← after
  return blend amount before after

namespace Buf

variable {S : Type}

/-- One converted sample, `buffer/audio_buffer.rs:325-339`, with the interpolation as a parameter.
`source_data.len() - 1` at line 327 is out of range for an empty source (with wrapping arithmetic the read at line
334 is).  The assignment at line 331 is overwritten at line 338. -/
noncomputable def convertSample (blend : ℝ → S → S → S) (source : List S) (ratio : ℝ) (i : Nat) : Res S := do
  if source.length = 0 then throw .panic
  let x := (i : ℝ) * ratio
  let before ← index source (min ⌊x⌋₊ (source.length - 1))
  let after ← index source (min ⌈x⌉₊ (source.length - 1))
  return blend (x - ⌊x⌋₊) before after

/-- `sample_rate_convert_from`, `buffer/audio_buffer.rs:306-342`. -/
noncomputable def sampleRateConvertFrom (blend : ℝ → S → S → S) (dst src : Buf S) (srcLoc dstLoc : Loc)
    (channelCount : Nat) : Res (Buf S) :=
  let ratio : ℝ := (src.sampleRate : ℝ) / dst.sampleRate
  (List.range channelCount).foldlM (fun (dst : Buf S) k => do
    let source ← src.channelData (srcLoc.offsetChannels k)
    dst.modifyChannel (dstLoc.offsetChannels k) (fun data =>
      (List.range data.length).mapM (convertSample blend source ratio))) dst

end Buf

/-- `WaveshaperProcessor`, `effects/waveshaper/waveshaper_processor.rs:8-11`. -/
structure Waveshaper where
  transfer : List (Option ℝ)
  oversampling : Buf (Option ℝ)

namespace Waveshaper

/-- `map_index_to_input_value`, `effects/waveshaper/waveshaper_processor.rs:120-125`. -/
noncomputable def inputValue (i count : Nat) : ℝ := -1 + (i : ℝ) / ((count : ℝ) - 1) * (1 - -1)

/-- `NUM_POINTS`, `effects/waveshaper/waveshaper_processor.rs:19`. -/
def numPoints : Nat := 512 - 1

/-- `new`, `effects/waveshaper/waveshaper_processor.rs:14-34`: the buffer is twice as long at twice the rate
(lines 5, 28-32). -/
noncomputable def new (shaper : ℝ → Option ℝ) (sampleRate maximumFrameCount : Nat) : Waveshaper :=
  ⟨(List.range numPoints).map (fun i => shaper (inputValue i numPoints)),
    Buf.owned (List.replicate (maximumFrameCount * 2 * 1) (some 0)) 1 (maximumFrameCount * 2) (sampleRate * 2)⟩

/-- `wave_shape_index_for_sample_value`, `effects/waveshaper/shape.rs:5-9`. -/
noncomputable def shapeIndex (sample : ℝ) (length : Nat) : ℝ :=
  max 0 (min ((sample + 1) / 2 * ((length : ℝ) - 1)) ((length : ℝ) - 1))

/-- `shape_sample`, `effects/waveshaper/shape.rs:11-35`.  A sample that is not a number has an index that is not a
number, which `as usize` turns into 0. -/
noncomputable def shapeSample (sample : Option ℝ) (shape : List (Option ℝ)) : Res (Option ℝ) :=
  if shape.length = 0 then .error .panic
  else
    match sample with
    | none => Buf.index shape 0
    | some x =>
      let i := shapeIndex x shape.length
      if ⌊i⌋₊ = ⌈i⌉₊ then Buf.index shape ⌊i⌋₊
      else
        match shape[⌊i⌋₊]?, shape[⌈i⌉₊]? with
        | some before, some after => .ok (blend? (i - ⌊i⌋₊) before after)
        | _, _ => Buf.index shape (shape.length - 1)

/-- `apply_shape`, `effects/waveshaper/waveshaper_processor.rs:36-58`, with `shape`, `shape.rs:37-41`. -/
noncomputable def applyShape (w : Waveshaper) (output : Buf (Option ℝ)) (channel : Nat) :
    Res (Waveshaper × Buf (Option ℝ)) := do
  let buffer ← w.oversampling.sampleRateConvertFrom blend? output (Loc.ofChannel channel) Loc.origin 1
  let buffer ← buffer.modifyChannel Loc.origin (fun data => data.mapM (fun x => shapeSample x w.transfer))
  let output ← output.sampleRateConvertFrom blend? buffer Loc.origin (Loc.ofChannel channel) 1
  return ({ w with oversampling := buffer }, output)

/-- `overdrive_to_gain`, `effects/waveshaper/waveshaper_processor.rs:61-65`, with
`effects/waveshaper/parameters.rs:4-5`. -/
noncomputable def overdriveGain (overdrive : ℝ) : ℝ := (Level.fromDb (0 + overdrive * (12 - 0))).linear

/-- `apply_overdrive`, `effects/waveshaper/waveshaper_processor.rs:67-72`. -/
noncomputable def applyOverdrive (overdrive : List ℝ) (samples : List (Option ℝ)) : List (Option ℝ) :=
  Kernels.zipInto (fun o x => x.map (· * overdriveGain o)) overdrive samples

/-- `reverse_overdrive`, `effects/waveshaper/waveshaper_processor.rs:74-79`; the gain is never 0. -/
noncomputable def reverseOverdrive (overdrive : List ℝ) (samples : List (Option ℝ)) : List (Option ℝ) :=
  Kernels.zipInto (fun o x => x.map (· / overdriveGain o)) overdrive samples

/-- One sample of `mix_input`, `effects/waveshaper/waveshaper_processor.rs:84-85`. -/
noncomputable def mixSample (input output : Option ℝ) (mix : ℝ) : Option ℝ := do
  let output ← output
  let input ← input
  return output * mix + input * (1 - mix)

/-- `mix_input`, `effects/waveshaper/waveshaper_processor.rs:81-88`. -/
noncomputable def mixInput (input output : List (Option ℝ)) (mix : List ℝ) : List (Option ℝ) :=
  Kernels.zipInto3 (fun input output mix => mixSample input output mix) input output mix

/-- One channel, `effects/waveshaper/waveshaper_processor.rs:100-115`. -/
noncomputable def processChannel (overdrive mix : List ℝ) (input : Buf (Option ℝ))
    (s : Waveshaper × Buf (Option ℝ)) (channel : Nat) : Res (Waveshaper × Buf (Option ℝ)) := do
  let data ← input.channelData (Loc.ofChannel channel)
  let output ← s.2.modifyChannel (Loc.ofChannel channel) (fun out =>
    if out.length = data.length then .ok (applyOverdrive overdrive data) else .error .panic)
  let (w, output) ← s.1.applyShape output channel
  let output ← output.modifyChannel (Loc.ofChannel channel) (fun out =>
    .ok (mixInput data (reverseOverdrive overdrive out) mix))
  return (w, output)

/-- `process_audio`, `effects/waveshaper/waveshaper_processor.rs:91-117`, with the values of the parameters in
the block. -/
noncomputable def processAudio (w : Waveshaper) (overdrive mix : List ℝ) (input output : Buf (Option ℝ)) :
    Res (Waveshaper × Buf (Option ℝ)) :=
  (List.range output.channelCount).foldlM (processChannel overdrive mix input) (w, output)

/-- The curve of `tanh`, `effects/waveshaper/waveshaper_node.rs:29-36`. -/
noncomputable def tanhCurve (x : ℝ) : Option ℝ := some (2 * Real.tanh (x / 2))

open Classical in
/-- The curve of `soft_saturator`, `effects/waveshaper/waveshaper_node.rs:45-53`.  For a threshold of 1 the inner
division is by 0: `none` for 0/0, and otherwise an infinity whose square under the fraction bar gives the
threshold. -/
noncomputable def softCurve (threshold x : ℝ) : Option ℝ :=
  if x < threshold then some x
  else if 1 - threshold = 0 then (if x - threshold = 0 then none else some threshold)
  else some (threshold + (x - threshold) / (1 + ((x - threshold) / (1 - threshold)) ^ 2))

open Classical in
/-- The curve of `hard_clip`, `effects/waveshaper/waveshaper_node.rs:63-73`. -/
noncomputable def hardCurve (threshold x : ℝ) : Option ℝ :=
  if x < -threshold then some (-threshold)
  else if x > threshold then some threshold
  else some x

end Waveshaper
end Rawdio
