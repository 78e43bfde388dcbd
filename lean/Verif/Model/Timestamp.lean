import Mathlib.Data.Rat.Floor
import Verif.Model.Basic

/-!
# `utility/timestamp.rs`

A timestamp is a signed 32.32 fixed point number of seconds (`fixed::types::I32F32`,
`timestamp.rs:6-12`).  It is modelled by its raw bits, an `Int` counting units of 2^-32 s.

Simplifications: numbers of seconds and samples are exact rationals instead of `f64`, and the
overflow of the 32-bit whole part is not modelled.
-/

namespace Rawdio

/-- `timestamp.rs:8-12`: the raw bits of the fixed point number (an alias used for documentation;
signatures below say `Int`). -/
abbrev Time := Int

namespace Timestamp

/-- The number of units in a second: the 32 fractional bits of `I32F32`, `timestamp.rs:6`. -/
def one : ℚ := 4294967296

/-- `FixedPoint::from_num` as used at `timestamp.rs:77,84,100,128`: the crate `fixed` rounds a
float to the nearest representable number, ties to even. -/
def roundHalfEven (x : ℚ) : Int :=
  let lo := ⌊x⌋
  let frac := x - lo
  if frac < 1 / 2 then lo
  else if 1 / 2 < frac then lo + 1
  else if lo % 2 = 0 then lo else lo + 1

/-- `timestamp.rs:58-62`. -/
def zero : Int := 0

/-- `timestamp.rs:75-79`. -/
def fromSeconds (seconds : ℚ) : Int := roundHalfEven (seconds * one)

/-- `timestamp.rs:82-86`.  The code divides by the sample rate; a rate of 0 is outside the model
(every use below has a positive rate). -/
def fromSamples (samples : ℚ) (sampleRate : Nat) : Int :=
  fromSeconds (samples / sampleRate)

/-- `timestamp.rs:94-102`. -/
def fromBeats (beats tempo : ℚ) : Int := fromSeconds (beats / (tempo / 60))

/-- `timestamp.rs:105-107`. -/
def asSeconds (t : Int) : ℚ := t / one

/-- `timestamp.rs:110-112`. -/
def asSamples (t : Int) (sampleRate : Nat) : ℚ := asSeconds t * sampleRate

/-- `timestamp.rs:115-118`. -/
def asBeats (t : Int) (tempo : ℚ) : ℚ := asSeconds t * (tempo / 60)

/-- `timestamp.rs:46-54` and `:121-123`. -/
def incrementedBySamples (t : Int) (sampleCount sampleRate : Nat) : Int :=
  t + fromSamples sampleCount sampleRate

/-- `timestamp.rs:126-130`. -/
def incrementedBySeconds (t : Int) (seconds : ℚ) : Int :=
  t + roundHalfEven (seconds * one)

/-- `timestamp.rs:133-135`. -/
def incrementedByBeats (t : Int) (beats tempo : ℚ) : Int :=
  t + fromBeats beats tempo

end Timestamp
end Rawdio
