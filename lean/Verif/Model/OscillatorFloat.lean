import Verif.Model.Files

/-!
# `effects/oscillator/oscillator_processor.rs` with the rounding of `f64` and `f32`

`Model/Oscillator.lean` computes with exact reals.  Here every operation on the phase and on the samples is rounded.  The
frequencies are `f32` numbers and the sample rate is less than 2^53, so that their conversions to `f64` do not round.  The
gain and the further channels are left out (see `Model/Oscillator.lean`).
-/

namespace Rawdio

/-- `OscillatorProcessor`, `effects/oscillator/oscillator_processor.rs:5-8`. -/
structure Oscillator64 where
  phase : ℚ
  wavetable : List ℚ

namespace Oscillator64

/-- `new`, `effects/oscillator/oscillator_processor.rs:11-16`. -/
def new (wavetable : List ℚ) : Oscillator64 := ⟨0, wavetable⟩

/-- The loop of `increment_phase`, `effects/oscillator/oscillator_processor.rs:20-22`, with a number of rounds. -/
def wrap : Nat → ℚ → Res ℚ
  | 0, _ => .error .diverge
  | fuel + 1, phase => if phase > 1 then wrap fuel (Float64.round (phase - 1)) else .ok phase

/-- `increment_phase`, `effects/oscillator/oscillator_processor.rs:18-23`. -/
def incrementPhase (fuel : Nat) (o : Oscillator64) (frequency : ℚ) (sampleRate : Nat) : Res Oscillator64 := do
  let phase ← wrap fuel (Float64.round (o.phase + Float64.round (frequency / sampleRate)))
  return { o with phase := phase }

/-- `interpolate`, `effects/oscillator/oscillator_processor.rs:43-45`. -/
def interpolate (a b amountOfB : ℚ) : ℚ :=
  Float64.round (Float64.round (Float64.round (1 - amountOfB) * a) + Float64.round (amountOfB * b))

/-- `get_value`, `effects/oscillator/oscillator_processor.rs:25-40`; the length of the table is less than 2^53. -/
def getValue (o : Oscillator64) : Res ℚ := do
  let offset := Float64.round (o.phase * o.wavetable.length)
  let before ← Buf.index o.wavetable ⌊offset⌋₊
  let after ← if ⌈offset⌉₊ < o.wavetable.length then Buf.index o.wavetable ⌈offset⌉₊ else .ok 0
  return interpolate before after (Float64.round (offset - ⌊offset⌋))

/-- The loop over the samples of channel 0, `effects/oscillator/oscillator_processor.rs:63-66`, where `izip!` pairs each
sample with the frequency of its frame. -/
def fill (fuel sampleRate : Nat) : Oscillator64 → List (ℚ × ℚ) → Res (Oscillator64 × List ℚ)
  | o, [] => .ok (o, [])
  | o, (_, frequency) :: frames => do
    let o ← o.incrementPhase fuel frequency sampleRate
    let value ← o.getValue
    let (o, values) ← fill fuel sampleRate o frames
    return (o, Float32.round value :: values)

/-- Blocks one after the other through the same processor, `effects/oscillator/oscillator_processor.rs:48`. -/
def play (fuel sampleRate : Nat) : Oscillator64 → List (List (ℚ × ℚ)) → Res (Oscillator64 × List (List ℚ))
  | o, [] => .ok (o, [])
  | o, block :: blocks => do
    let (o, values) ← o.fill fuel sampleRate block
    let (o, outputs) ← o.play fuel sampleRate blocks
    return (o, values :: outputs)

end Oscillator64
end Rawdio
