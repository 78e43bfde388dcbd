import Mathlib.Analysis.SpecialFunctions.Trigonometric.Basic
import Verif.Model.Buffer
import Verif.Model.Level

/-!
# `effects/biquad`: the biquad filter

Over exact reals; `f32` and `f64` are not told apart.  The values of the parameters in a block are given (see
`Model/Parameter.lean`).
-/

namespace Rawdio
namespace Biquad

/-- `BiquadCoefficients`, `effects/biquad/biquad_coefficients.rs:6-12`. -/
structure Coefficients where
  a1 : ℝ
  a2 : ℝ
  b0 : ℝ
  b1 : ℝ
  b2 : ℝ

/-- `BiquadFilterType`, `effects/biquad/filter_type.rs:6-36`. -/
inductive FilterType where
  | highPass
  | lowPass
  | bandPass
  | notch
  | highShelf
  | lowShelf

/-- `omega`, `effects/biquad/biquad_coefficients.rs:188-190`. -/
noncomputable def omega (frequency sampleRate : ℝ) : ℝ := 2 * Real.pi * frequency / sampleRate

/-- The end of every constructor: `scale = 1 / a0` and the product with it, for example
`effects/biquad/biquad_coefficients.rs:27-35`. -/
noncomputable def scaled (a0 a1 a2 b0 b1 b2 : ℝ) : Coefficients :=
  let scale := 1 / a0
  ⟨a1 * scale, a2 * scale, b0 * scale, b1 * scale, b2 * scale⟩

/-- `low_pass`, `effects/biquad/biquad_coefficients.rs:15-36`. -/
noncomputable def lowPass (frequency sampleRate q : ℝ) : Coefficients :=
  let w := omega frequency sampleRate
  let b0 := (1 - Real.cos w) / 2
  let b1 := 2 * b0
  let b2 := b0
  let alpha := Real.sin w / (2 * q)
  scaled (1 + alpha) (-2 * Real.cos w) (1 - alpha) b0 b1 b2

/-- `high_pass`, `effects/biquad/biquad_coefficients.rs:38-59`. -/
noncomputable def highPass (frequency sampleRate q : ℝ) : Coefficients :=
  let w := omega frequency sampleRate
  let b0 := (1 + Real.cos w) / 2
  let b1 := -(1 + Real.cos w)
  let b2 := b0
  let alpha := Real.sin w / (2 * q)
  scaled (1 + alpha) (-2 * Real.cos w) (1 - alpha) b0 b1 b2

/-- `band_pass`, `effects/biquad/biquad_coefficients.rs:61-82`. -/
noncomputable def bandPass (frequency sampleRate q : ℝ) : Coefficients :=
  let w := omega frequency sampleRate
  let alpha := Real.sin w / (2 * q)
  scaled (1 + alpha) (-2 * Real.cos w) (1 - alpha) alpha 0 (-alpha)

/-- `notch`, `effects/biquad/biquad_coefficients.rs:84-105`. -/
noncomputable def notch (frequency sampleRate q : ℝ) : Coefficients :=
  let w := omega frequency sampleRate
  let alpha := Real.sin w / (2 * q)
  scaled (1 + alpha) (-2 * Real.cos w) (1 - alpha) 1 (-2 * Real.cos w) 1

/-- `low_shelf`, `effects/biquad/biquad_coefficients.rs:107-135`. -/
noncomputable def lowShelf (frequency sampleRate : ℝ) (level : Level) : Coefficients :=
  let a := √level.linear
  let w := omega frequency sampleRate
  let beta := √(2 * a)
  let s := beta * Real.sin w
  let c := Real.cos w
  scaled ((a + 1) + (a - 1) * c + s) (-2 * ((a - 1) + (a + 1) * c)) ((a + 1) + (a - 1) * c - s)
    (a * ((a + 1) - (a - 1) * c + s)) (2 * a * ((a - 1) - (a + 1) * c)) (a * ((a + 1) - (a - 1) * c - s))

/-- `high_shelf`, `effects/biquad/biquad_coefficients.rs:137-165`. -/
noncomputable def highShelf (frequency sampleRate : ℝ) (level : Level) : Coefficients :=
  let a := √level.linear
  let w := omega frequency sampleRate
  let beta := √(a + a)
  let s := beta * Real.sin w
  let c := Real.cos w
  scaled ((a + 1) - (a - 1) * c + s) (2 * ((a - 1) - (a + 1) * c)) ((a + 1) - (a - 1) * c - s)
    (a * ((a + 1) + (a - 1) * c + s)) (-2 * a * ((a - 1) + (a + 1) * c)) (a * ((a + 1) + (a - 1) * c - s))

/-- `Parameters`, `effects/biquad/biquad_processor.rs:13-18`. -/
structure Settings where
  frequency : ℝ
  q : ℝ
  shelfGain : ℝ

/-- `calculate_coefficients`, `effects/biquad/biquad_processor.rs:20-49`. -/
noncomputable def calculate (type : FilterType) (p : Settings) (sampleRate : Nat) : Coefficients :=
  match type with
  | .highPass => highPass p.frequency sampleRate p.q
  | .lowPass => lowPass p.frequency sampleRate p.q
  | .bandPass => bandPass p.frequency sampleRate p.q
  | .notch => notch p.frequency sampleRate p.q
  | .highShelf => highShelf p.frequency sampleRate (Level.fromLinear p.shelfGain)
  | .lowShelf => lowShelf p.frequency sampleRate (Level.fromLinear p.shelfGain)

/-- One entry of `delays`, `[x1, x2, y1, y2]`, `effects/biquad/biquad_processor.rs:10`, `:104-107`. -/
structure Delays where
  x1 : ℝ
  x2 : ℝ
  y1 : ℝ
  y2 : ℝ

/-- `BiquadProcessor`, `effects/biquad/biquad_processor.rs:5-11`. -/
structure Processor where
  type : FilterType
  sampleRate : Nat
  coefficients : Coefficients
  last : Settings
  delays : List Delays

/-- `new`, `effects/biquad/biquad_processor.rs:52-66`. -/
noncomputable def Processor.new (sampleRate channelCount : Nat) (type : FilterType) : Processor :=
  let p : Settings := ⟨1000, 1 / √2, 1⟩
  ⟨type, sampleRate, calculate type p sampleRate, p, List.replicate channelCount ⟨0, 0, 0, 0⟩⟩

open Classical in
/-- `denormal`, `effects/biquad/biquad_processor.rs:132-140`. -/
noncomputable def denormal (sample : ℝ) : ℝ :=
  let threshold := 1 / 10 ^ 8
  if -threshold ≤ sample ∧ sample ≤ threshold then 0 else sample

/-- `out`, `effects/biquad/biquad_processor.rs:109-113`. -/
noncomputable def out (c : Coefficients) (d : Delays) (x : ℝ) : ℝ :=
  c.b0 * x + c.b1 * d.x1 + c.b2 * d.x2 - c.a1 * d.y1 - c.a2 * d.y2

/-- The delays after a sample, `effects/biquad/biquad_processor.rs:115-122`. -/
noncomputable def Delays.next (d : Delays) (x y : ℝ) : Delays :=
  ⟨denormal x, denormal d.x1, denormal y, denormal d.y1⟩

/-- The values of the parameters for a block, one for each frame (`effects/biquad/biquad_processor.rs:71-82`). -/
structure BlockParameters where
  frequency : List ℝ
  q : List ℝ
  shelfGain : List ℝ
  gain : List ℝ

/-- One sample, `effects/biquad/biquad_processor.rs:101-124`. -/
noncomputable def sample (input : Buf ℝ) (frame : Nat) (s : Processor × Buf ℝ) (channel : Nat) :
    Res (Processor × Buf ℝ) := do
  let x ← input.getSample ⟨channel, frame⟩
  let d ← Buf.index s.1.delays channel
  let y := out s.1.coefficients d x
  let delays ← Buf.assign s.1.delays channel (d.next x y)
  let output ← s.2.setSample ⟨channel, frame⟩ y
  return ({ s.1 with delays := delays }, output)

open Classical in
/-- The coefficients are calculated again when a parameter has changed, `effects/biquad/biquad_processor.rs:94-98`. -/
noncomputable def Processor.update (p : Processor) (settings : Settings) : Processor :=
  if settings ≠ p.last then
    { p with coefficients := calculate p.type settings p.sampleRate, last := settings }
  else p

/-- One frame, `effects/biquad/biquad_processor.rs:88-125`. -/
noncomputable def frame (params : BlockParameters) (input : Buf ℝ) (channelCount : Nat) (s : Processor × Buf ℝ)
    (frame : Nat) : Res (Processor × Buf ℝ) := do
  let f ← Buf.index params.frequency frame
  let q ← Buf.index params.q frame
  let g ← Buf.index params.shelfGain frame
  (List.range channelCount).foldlM (sample input frame) (s.1.update ⟨f, q, g⟩, s.2)

/-- `process_audio`, `effects/biquad/biquad_processor.rs:70-129`.  `isZero`, `isOne` and `al` belong to
`apply_gain` (see `Model/Buffer.lean`). -/
noncomputable def Processor.process (isZero isOne : ℝ → Bool) (al : Nat → Nat × Nat) (params : BlockParameters)
    (p : Processor) (input output : Buf ℝ) : Res (Processor × Buf ℝ) := do
  let s ← (List.range output.frameCount).foldlM (frame params input output.channelCount) (p, output)
  let output ← s.2.applyGain isZero isOne al params.gain
  return (s.1, output)

/-- Blocks one after the other through the same processor, `effects/biquad/biquad_processor.rs:70`; each with its
parameters, input, output and the alignment of the gain kernels. -/
noncomputable def Processor.processAll (isZero isOne : ℝ → Bool) :
    Processor → List (BlockParameters × Buf ℝ × Buf ℝ × (Nat → Nat × Nat)) → Res (Processor × List (Buf ℝ))
  | p, [] => .ok (p, [])
  | p, (params, input, output, al) :: blocks => do
    let (p, output) ← p.process isZero isOne al params input output
    let (p, outputs) ← p.processAll isZero isOne blocks
    return (p, output :: outputs)

end Biquad
end Rawdio
