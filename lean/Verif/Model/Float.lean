import Mathlib.Data.Int.Log
import Verif.Model.Timestamp

/-!
# Time conversions in `f64`

`Model/Timestamp.lean` computes with exact rationals.  Here the conversions between samples and timestamps are
modelled with the rounding of `f64`.  Numbers beyond the range of `f64` (2^1024 and more) are not modelled: the
conversions never come near them.
-/

namespace Rawdio
namespace Float64

/-- The distance between two `f64` numbers of the magnitude of `x`: 53 binary digits, the smallest being 2^-1074.
The type of the numbers at `utility/timestamp.rs:82-86,105-112`. -/
def ulp (x : ℚ) : ℚ := 2 ^ max (Int.log 2 |x| - 52) (-1074)

/-- The rounding of every `f64` operation at `utility/timestamp.rs:82-86,105-112` and
`realtime/processor.rs:115-121`: to the nearest `f64`, ties to even. -/
def round (x : ℚ) : ℚ := Timestamp.roundHalfEven (x / ulp x) * ulp x

end Float64

namespace Timestamp

/-- `from_samples`, `utility/timestamp.rs:82-86`; the sample rate and the number of samples are taken to be whole
numbers of less than 2^53, so that they are `f64` numbers. -/
def fromSamplesFloat (samples : ℚ) (sampleRate : Nat) : Int :=
  roundHalfEven (Float64.round (samples / sampleRate) * one)

/-- `as_samples`, `utility/timestamp.rs:110-112`: the conversion of the fixed point number rounds, and so does the
multiplication. -/
def asSamplesFloat (t : Int) (sampleRate : Nat) : ℚ :=
  Float64.round (Float64.round (t / one) * sampleRate)

/-- The time published by `update_position`, `realtime/processor.rs:115-121`, after `framePosition` frames. -/
def clockFloat (framePosition sampleRate : Nat) : Int :=
  roundHalfEven (Float64.round ((framePosition : ℚ) / sampleRate) * one)

end Timestamp
end Rawdio
