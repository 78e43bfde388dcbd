import Verif.Model.ConvertFloat

/-!
# The lookup of the waveshaper with `f32` samples

`effects/waveshaper/shape.rs` with every operation rounded as the program rounds it.  `Model/Waveshaper.lean` has it over
exact reals.  Samples and tables are finite `f32` numbers: NaN, infinities and the sign of zero are not modelled here.
-/

namespace Rawdio
namespace Shape32

/-- `wave_shape_index_for_sample_value`, `effects/waveshaper/shape.rs:5-9`, in `f64`.  The length of the table less one is
taken as it is: lengths below 2^53 are `f64` numbers. -/
def shapeIndex (sample : Sample32) (length : Nat) : ℚ :=
  let normalised := Float64.round (Float64.round (sample.1 + 1) / 2)
  max 0 (min (Float64.round (normalised * ((length - 1 : Nat) : ℚ))) ((length - 1 : Nat) : ℚ))

/-- `amount_of_after`, `effects/waveshaper/shape.rs:32`: the index and the whole index are converted to `f32`. -/
def amountOfAfter (index : ℚ) : Sample32 :=
  ⟨Float32.round (Float32.round index - Float32.round ⌊index⌋₊), Sample32.rep_round _⟩

/-- `shape_sample`, `effects/waveshaper/shape.rs:11-35`, with `interpolate` of lines 1 to 3, which is the one of
`buffer/audio_buffer.rs:338-339`. -/
def shapeSample (sample : Sample32) (shape : List Sample32) : Res Sample32 :=
  if shape.length = 0 then .error .panic
  else
    let index := shapeIndex sample shape.length
    if ⌊index⌋₊ = ⌈index⌉₊ then Buf.index shape ⌊index⌋₊
    else
      match shape[⌊index⌋₊]?, shape[⌈index⌉₊]? with
      | some before, some after => .ok (Convert32.interpolate (amountOfAfter index) before after)
      | _, _ => Buf.index shape (shape.length - 1)

end Shape32
end Rawdio
