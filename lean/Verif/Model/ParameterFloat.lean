import Verif.Model.Float
import Verif.Model.Parameter

/-!
# Parameters in the arithmetic of `f64`

`Model/Parameter.lean` leaves the arithmetic open.  Here is that of the code: every operation is rounded to an
`f64`.  The logarithm and the exponential function, whose accuracy depends on the platform, stay open.  Numbers of
2^1024 and more, division by 0 and the two zeros are not modelled.
-/

namespace Rawdio

/-- The arithmetic of `f64` at `parameter/realtime_parameter.rs:79-156`.  `ofSamples` rounds once where
`utility/timestamp.rs:110-112` rounds twice: the first rounding changes nothing for the first 24 days
(`Timestamp.asSamplesFloat_early`).  `near` is `relative_eq!` of the crate `approx` for finite numbers, with the
rounding of its subtraction. -/
def floatArith (ln exp : ℚ → ℚ) : Arith ℚ where
  zero := 0
  one := 1
  add := fun a b => Float64.round (a + b)
  sub := fun a b => Float64.round (a - b)
  mul := fun a b => Float64.round (a * b)
  div := fun a b => Float64.round (a / b)
  ln := ln
  exp := exp
  ofSamples := Float64.round
  near := fun a b => decide (a = b ∨ |Float64.round (a - b)| ≤ 1 / 2 ^ 52 ∨
    |Float64.round (a - b)| ≤ max |a| |b| * (1 / 2 ^ 52))

end Rawdio
