import Verif.Model.SampleFloat
import Verif.Model.Gain

/-!
# The gain of buffers with `f32` samples

`Buf.applyGain` and `Gain.processAudio` are modelled for every type of samples that can be multiplied, and for every
test of gains for 0 and 1.  Here are the product and the test that the program uses.
-/

namespace Rawdio
namespace Sample32

/-- `*sample *= *gain`, `dsp/mod.rs:147-172`: the exact product, rounded. -/
instance : Mul Sample32 := ⟨fun a b => ⟨Float32.round (a.1 * b.1), rep_round _⟩⟩

/-- `1.0_f32`, `buffer/audio_buffer.rs:258`. -/
instance : One Sample32 := ⟨⟨1, 1, 0, by simp, by norm_num, by norm_num⟩⟩

/-- `relative_eq!` of the crate `approx` for finite `f32` numbers, with its default tolerances, both `f32::EPSILON`, as
used at `buffer/audio_buffer.rs:253,258,274,279`.  The product with the tolerance is not rounded: it is exact unless
it is far smaller than the tolerance, and then the first comparison decides. -/
def relativeEq (a b : Sample32) : Bool :=
  decide (a.1 = b.1 ∨ |Float32.round (a.1 - b.1)| ≤ 1 / 2 ^ 23 ∨
    |Float32.round (a.1 - b.1)| ≤ max |a.1| |b.1| * (1 / 2 ^ 23))

end Sample32

/-- `apply_gain` with `f32` samples, `buffer/audio_buffer.rs:250-266`. -/
def Gain.applyGain32 (al : Nat → Nat × Nat) (gain : List Sample32) (b : Buf Sample32) : Res (Buf Sample32) :=
  b.applyGain (fun g => Sample32.relativeEq g 0) (fun g => Sample32.relativeEq g 1) al gain

/-- `process_audio` of the gain node with `f32` samples, `effects/gain/gain_processor.rs:12-31` with
`buffer/audio_buffer.rs:250-266`. -/
def Gain.processAudio32 (al : Nat → Nat × Nat) (gain : List Sample32) (input output : Buf Sample32) : Res (Buf Sample32) :=
  Gain.processAudio (fun g => Sample32.relativeEq g 0) (fun g => Sample32.relativeEq g 1) al gain input output

end Rawdio
