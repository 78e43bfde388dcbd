import Mathlib.Analysis.SpecialFunctions.Complex.Circle
import Mathlib.Data.Nat.Log
import Verif.Model.Buffer
import Verif.Model.DspGraph

/-!
# `effects/convolution`: the convolution node

Over the complex numbers, without rounding.  The transforms of the library `rustfft` are modelled by what it documents:
sums over powers of a root of unity, without scaling.  The scratch buffers `input_fft` and `complex_output` are
written before they are read in every round, so they are not part of the state.
-/

namespace Rawdio

/-- `ConvolutionProcessor`, `effects/convolution/convolution_processor.rs:8-17`; `length` is the length of the
transforms, from which `output_scale` follows. -/
structure Convolver where
  length : Nat
  impulse : List (List ℂ)
  input : List (List ℂ)
  maximum : Nat

namespace Convolver

/-- The forward transform, `plan_fft_forward` at `effects/convolution/convolution_processor.rs:26`. -/
noncomputable def fft (n : Nat) (x : List ℂ) : List ℂ :=
  (List.range n).map (fun q : Nat => ∑ m ∈ Finset.range n, x.getD m 0 * Complex.exp (-(2 * Real.pi * Complex.I * q * m / n)))

/-- The inverse transform, `plan_fft_inverse` at `effects/convolution/convolution_processor.rs:30`. -/
noncomputable def ifft (n : Nat) (x : List ℂ) : List ℂ :=
  (List.range n).map (fun j : Nat => ∑ q ∈ Finset.range n, x.getD q 0 * Complex.exp (2 * Real.pi * Complex.I * q * j / n))

/-- One channel of `fft_impulse`, `effects/convolution/convolution_processor.rs:179-189`; `resize` cuts or appends
zeros. -/
noncomputable def impulseChannel (impulse : Buf ℝ) (length channel : Nat) : Res (List ℂ) := do
  let data ← impulse.channelData (Loc.ofChannel channel)
  return fft length ((data.map (fun x : ℝ => (x : ℂ)) ++ List.replicate (length - data.length) 0).take length)

/-- `next_power_of_two` at `effects/convolution/convolution_processor.rs:22`: the least power of two that is not
less, 1 for 0. -/
def nextPowerOfTwo (n : Nat) : Nat := 2 ^ Nat.clog 2 n

/-- `new`, `effects/convolution/convolution_processor.rs:20-38`, with `:165-193`.  The subtraction at line 22
overflows when both counts are 0. -/
noncomputable def new (impulse : Buf ℝ) (maximumFrameCount : Nat) : Res Convolver := do
  if impulse.frameCount + maximumFrameCount = 0 then .error .panic
  else
    let length := nextPowerOfTwo (impulse.frameCount + maximumFrameCount - 1)
    let impulseFft ← (List.range impulse.channelCount).mapM (impulseChannel impulse length)
    return ⟨length, impulseFft, List.replicate impulse.channelCount (List.replicate length 0), maximumFrameCount⟩

/-- One channel of `consume_input`, `effects/convolution/convolution_processor.rs:43-59`. -/
noncomputable def consumeChannel (input : Buf ℝ) (inputs : List (List ℂ)) (channel : Nat) : Res (List (List ℂ)) := do
  let l ← Buf.index inputs channel
  let l ← Buf.copyWithinList l input.frameCount (l.length - input.frameCount) 0
  let audio ← input.channelData (Loc.ofChannel channel)
  let l ← modifyRange l (l.length - input.frameCount) l.length
    (fun slice => .ok (Kernels.zipInto (fun (x : ℝ) _ => (x : ℂ)) audio slice))
  Buf.assign inputs channel l

/-- `consume_input`, `effects/convolution/convolution_processor.rs:40-61`. -/
noncomputable def consumeInput (c : Convolver) (input : Buf ℝ) : Res Convolver := do
  let inputs ← (List.range input.channelCount).foldlM (consumeChannel input) c.input
  return { c with input := inputs }

/-- `fft_input`, `perform_fft_multiplication` and `ifft_output`, `effects/convolution/convolution_processor.rs:63-90`:
the contents of `complex_output` afterwards. -/
noncomputable def transformed (c : Convolver) : List (List ℂ) :=
  List.zipWith (fun input impulse => ifft c.length (List.zipWith (· * ·) (fft c.length input) impulse)) c.input c.impulse

/-- `copy_dry_to_output`, `effects/convolution/convolution_processor.rs:92-102`; `al` gives the alignment of the
kernels for each channel. -/
noncomputable def copyDry (al : Nat → Nat × Nat × Nat) (input output : Buf ℝ) (dry : List ℝ) : Res (Buf ℝ) :=
  (List.range output.channelCount).foldlM (fun (output : Buf ℝ) channel => do
    let data ← input.channelData (Loc.ofChannel channel)
    output.modifyChannel (Loc.ofChannel channel) (fun out =>
      .ok (Kernels.mixIntoWithGains (al channel).1 (al channel).2.1 (al channel).2.2 data out dry))) output

/-- One channel of `copy_processed_to_output`, `effects/convolution/convolution_processor.rs:116-125`. -/
noncomputable def addProcessed (complexOutput : List (List ℂ)) (scale : ℝ) (wet : List ℝ) (channel : Nat)
    (audio : List ℝ) : Res (List ℝ) := do
  let convolved ← Buf.index complexOutput channel
  if audio.length ≤ convolved.length then
    let part ← sliceRange convolved (convolved.length - audio.length) convolved.length
    return Kernels.zipInto3 (fun (z : ℂ) out wet => out + z.re * scale * wet) part audio wet
  else .error .panic

/-- `copy_processed_to_output`, `effects/convolution/convolution_processor.rs:104-127`. -/
noncomputable def copyProcessed (complexOutput : List (List ℂ)) (scale : ℝ) (output : Buf ℝ) (wet : List ℝ) :
    Res (Buf ℝ) :=
  (List.range output.channelCount).foldlM (fun (output : Buf ℝ) channel =>
    output.modifyChannel (Loc.ofChannel channel) (addProcessed complexOutput scale wet channel)) output

/-- One round of `process`, `effects/convolution/convolution_processor.rs:142-160`. -/
noncomputable def round (al : Nat → Nat × Nat × Nat) (input : Buf ℝ) (wet dry : List ℝ) (s : Convolver × Buf ℝ)
    (offset : Nat) : Res (Convolver × Buf ℝ) := do
  let frameCount := min s.1.maximum (input.frameCount - offset)
  let wet ← sliceRange wet offset (offset + frameCount)
  let dry ← sliceRange dry offset (offset + frameCount)
  let input ← input.sliceFrames offset frameCount false
  let output ← s.2.sliceFrames offset frameCount true
  let c ← s.1.consumeInput input
  let output ← copyDry al input output dry
  let output ← copyProcessed c.transformed (1 / c.length) output wet
  return (c, output.parent)

/-- `process` and `process_audio`, `effects/convolution/convolution_processor.rs:129-162`, `:195-207`, with the values
of the parameters in the block; `step_by(0)` panics. -/
noncomputable def process (al : Nat → Nat → Nat × Nat × Nat) (c : Convolver) (input output : Buf ℝ) (wet dry : List ℝ) :
    Res (Convolver × Buf ℝ) :=
  if c.maximum = 0 then .error .panic
  else (List.range ((input.frameCount + c.maximum - 1) / c.maximum)).foldlM
    (fun s i => round (al i) input wet dry s (i * c.maximum)) (c, output)

/-- Blocks one after the other through the same processor, each with its input, output, wet and dry values and the
alignment of the kernels, `effects/convolution/convolution_processor.rs:196`. -/
noncomputable def processAll :
    Convolver → List (Buf ℝ × Buf ℝ × List ℝ × List ℝ × (Nat → Nat → Nat × Nat × Nat)) →
      Res (Convolver × List (Buf ℝ))
  | c, [] => .ok (c, [])
  | c, (input, output, wet, dry, al) :: blocks => do
    let (c, output) ← c.process al input output wet dry
    let (c, outputs) ← c.processAll blocks
    return (c, output :: outputs)

end Convolver
end Rawdio
