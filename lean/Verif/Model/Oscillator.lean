import Mathlib.Analysis.SpecialFunctions.Trigonometric.Basic
import Mathlib.Algebra.Order.Floor.Ring
import Verif.Model.Buffer
import Verif.Model.Level

/-!
# `effects/oscillator`: the oscillator node

Over exact reals; the conversions between `f64` and `f32` are left out.  The values of the parameters `frequency` and
`gain` in a block are given (see `Model/Parameter.lean`).  The `while` loop is given a number of rounds; running out
of them is divergence.
-/

namespace Rawdio

/-- `OscillatorProcessor`, `effects/oscillator/oscillator_processor.rs:5-8`. -/
structure Oscillator where
  phase : ℝ
  wavetable : List ℝ

namespace Oscillator

/-- `new`, `effects/oscillator/oscillator_processor.rs:11-16`. -/
noncomputable def new (wavetable : List ℝ) : Oscillator := ⟨0, wavetable⟩

open Classical in
/-- The loop of `increment_phase`, `effects/oscillator/oscillator_processor.rs:20-22`. -/
noncomputable def wrap : Nat → ℝ → Res ℝ
  | 0, _ => .error .diverge
  | fuel + 1, phase => if phase > 1 then wrap fuel (phase - 1) else .ok phase

/-- `increment_phase`, `effects/oscillator/oscillator_processor.rs:18-23`. -/
noncomputable def incrementPhase (fuel : Nat) (o : Oscillator) (frequency : ℝ) (sampleRate : Nat) : Res Oscillator := do
  let phase ← wrap fuel (o.phase + frequency / sampleRate)
  return { o with phase := phase }

/-- `interpolate`, `effects/oscillator/oscillator_processor.rs:43-45`. -/
noncomputable def interpolate (a b amountOfB : ℝ) : ℝ := (1 - amountOfB) * a + amountOfB * b

/-- `get_value`, `effects/oscillator/oscillator_processor.rs:25-40`. -/
noncomputable def getValue (o : Oscillator) : Res ℝ := do
  let offset := o.phase * o.wavetable.length
  let before ← Buf.index o.wavetable ⌊offset⌋₊
  let after ← if ⌈offset⌉₊ < o.wavetable.length then Buf.index o.wavetable ⌈offset⌉₊ else .ok 0
  return interpolate before after (offset - ⌊offset⌋)

/-- The loop over the samples of channel 0, `effects/oscillator/oscillator_processor.rs:63-66`. -/
noncomputable def fill (fuel sampleRate : Nat) : Oscillator → List ℝ → List ℝ → Res (Oscillator × List ℝ)
  | o, _ :: data, frequency :: frequencies => do
    let o ← o.incrementPhase fuel frequency sampleRate
    let value ← o.getValue
    let (o, values) ← fill fuel sampleRate o data frequencies
    return (o, value :: values)
  | o, data, _ => .ok (o, data)

/-- `process_audio`, `effects/oscillator/oscillator_processor.rs:48-78`.  `isZero`, `isOne` and `al` belong to
`apply_gain` (see `Model/Buffer.lean`). -/
noncomputable def processAudio (isZero isOne : ℝ → Bool) (al : Nat → Nat × Nat) (fuel : Nat) (o : Oscillator)
    (frequency gain : List ℝ) (output : Buf ℝ) : Res (Oscillator × Buf ℝ) := do
  let data ← output.channelData (Loc.ofChannel 0)
  let (o, values) ← o.fill fuel output.sampleRate data frequency
  let output ← output.modifyChannel (Loc.ofChannel 0) (fun _ => .ok values)
  let output ← output.applyGain isZero isOne al gain
  let output ← (List.range' 1 (output.channelCount - 1)).foldlM (fun (output : Buf ℝ) channel =>
    output.duplicateChannel (Loc.ofChannel 0) channel output.frameCount) output
  return (o, output)

/-- Blocks one after the other through the same processor, each with its frequencies, gains, output and the alignment
of the gain kernels, `effects/oscillator/oscillator_processor.rs:48`. -/
noncomputable def processAll (isZero isOne : ℝ → Bool) (fuel : Nat) :
    Oscillator → List (List ℝ × List ℝ × Buf ℝ × (Nat → Nat × Nat)) → Res (Oscillator × List (Buf ℝ))
  | o, [] => .ok (o, [])
  | o, (frequency, gain, output, al) :: blocks => do
    let (o, output) ← o.processAudio isZero isOne al fuel frequency gain output
    let (o, outputs) ← o.processAll isZero isOne fuel blocks
    return (o, output :: outputs)

/-- `make_sine_wavetable`, `effects/oscillator/oscillator_node.rs:32-42`. -/
noncomputable def makeSine (length harmonic : Nat) : List ℝ :=
  (List.range length).map (fun frame : Nat => Real.sin (2 * Real.pi * ((harmonic : ℝ) * frame / length)))

/-- `table_size`, `effects/oscillator/oscillator_node.rs:57`, `:73`. -/
def tableSize : Nat := 8192

/-- The processor of `sine`, `effects/oscillator/oscillator_node.rs:56-60`. -/
noncomputable def sine : Oscillator := new (makeSine tableSize 1)

/-- The table of `with_harmonics`, `effects/oscillator/oscillator_node.rs:73-86`; the levels are added from index
`index` on. -/
noncomputable def addHarmonics : Nat → List Level → List ℝ → List ℝ
  | _, [], wavetable => wavetable
  | index, level :: levels, wavetable =>
    addHarmonics (index + 1) levels
      (Kernels.zipInto (fun h w => w + h * level.linear) (makeSine tableSize (index + 1)) wavetable)

/-- The processor of `with_harmonics`, `effects/oscillator/oscillator_node.rs:67-89`. -/
noncomputable def withHarmonics (levels : List Level) : Oscillator :=
  new (addHarmonics 0 levels (List.replicate tableSize 0))

/-- Frequencies that the parameter allows, `effects/oscillator/oscillator_node.rs:28-29`. -/
def InRange (frequency : ℝ) : Prop := 20 ≤ frequency ∧ frequency ≤ 20000

end Oscillator
end Rawdio
