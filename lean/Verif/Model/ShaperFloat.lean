import Verif.Model.ShapeFloat
import Verif.Model.Kernels

/-!
# The table and the mix of the waveshaper with `f32` samples

The parts of `effects/waveshaper/waveshaper_processor.rs` around the lookup of `Model/ShapeFloat.lean`, with every
operation rounded as the program rounds it.  The shaper is a parameter: any function on finite `f32` numbers.  NaN,
infinities and the sign of zero are not modelled.  The oversampling is in `Model/ConvertFloat.lean`; the gain of the
overdrive, `overdrive_to_gain`, is a parameter here.
-/

namespace Rawdio
namespace Shaper32

/-- `map_index_to_input_value`, `effects/waveshaper/waveshaper_processor.rs:120-125`; `MAX_VALUE - MIN_VALUE` is 2. -/
def inputValue (index count : Nat) : Sample32 :=
  let normalised := Float32.round (Float32.round index / Float32.round (Float32.round count - 1))
  ⟨Float32.round (-1 + Float32.round (normalised * 2)), Sample32.rep_round _⟩

/-- `transfer_function` of `new` with `NUM_POINTS`, `effects/waveshaper/waveshaper_processor.rs:19-24`. -/
def transfer (shaper : Sample32 → Sample32) : List Sample32 :=
  (List.range 511).map (fun index => shaper (inputValue index 511))

/-- `shape`, `effects/waveshaper/shape.rs:37-41`. -/
def shape (signal table : List Sample32) : Res (List Sample32) :=
  signal.mapM (fun sample => Shape32.shapeSample sample table)

/-- `apply_overdrive`, `effects/waveshaper/waveshaper_processor.rs:67-72`; `gain` is `overdrive_to_gain` of lines 61 to
65. -/
def applyOverdrive (gain : Sample32 → Sample32) (overdrive samples : List Sample32) : List Sample32 :=
  Kernels.zipInto (fun overdrive sample => sample * gain overdrive) overdrive samples

/-- `reverse_overdrive`, `effects/waveshaper/waveshaper_processor.rs:74-79`; gains are not 0. -/
def reverseOverdrive (gain : Sample32 → Sample32) (overdrive samples : List Sample32) : List Sample32 :=
  Kernels.zipInto (fun overdrive sample => ⟨Float32.round (sample.1 / (gain overdrive).1), Sample32.rep_round _⟩) overdrive
    samples

/-- One sample of `mix_input`, `effects/waveshaper/waveshaper_processor.rs:84-85`. -/
def mixSample (input output mix : Sample32) : Sample32 := output * mix + input * Convert32.oneMinus mix

/-- `mix_input`, `effects/waveshaper/waveshaper_processor.rs:81-88`. -/
def mixInput (input output mix : List Sample32) : List Sample32 := Kernels.zipInto3 mixSample input output mix

end Shaper32
end Rawdio
