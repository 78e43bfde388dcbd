import Verif.Model.Connect
import Verif.Model.FileExamples
import Verif.Model.MeterNode

/-!
# `examples/src/bin/meter.rs`: a file that fades out, and a meter

The program up to `stop` (line 50). The values are within the ranges of the parameters, so clamping is left out.
-/

namespace Rawdio
namespace MeterExample

open RowExamples (set ramp duration)

/-- Nodes of the example and requests to them, `examples/src/bin/meter.rs:27-30`. -/
abbrev Api := ApiCall (WithMeters MixedNode) (WithMeters.Request MixedRequest)

/-- `Timestamp::from_duration`, `utility/timestamp.rs:89-91`, of nanoseconds. -/
def fromDuration (nanoseconds : Nat) : Int := Timestamp.fromSeconds ((nanoseconds : ℚ) / 10 ^ 9)

/-- What is requested of the gain, `examples/src/bin/meter.rs:63-69`. -/
noncomputable def fadeOut (length : Int) : List MixedRequest :=
  [set "gain" 1 Timestamp.zero, ramp "gain" 0 Timestamp.zero length]

/-- A new node and the requests to it, `examples/src/bin/meter.rs:55-84`. -/
def create {P : Type} (kind : P → WithMeters MixedNode) (d : Dsp P) (requests : List MixedRequest) : List Api :=
  .create d.id d.inputCount d.outputCount (kind d.state) :: requests.map fun r => .change ⟨d.id, d.outputCount⟩ (.other r)

/-- What is done before the engine runs, `examples/src/bin/meter.rs:27-37`, with the new sampler, gain and meter; the
event of the sampler has the number `n`. -/
noncomputable def setUp (length : Int) (n : Nat) (sampler gain : Dsp MixedNode) (meter : Dsp MeterNode) : List Api :=
  create .other sampler [] ++ create .other gain (fadeOut length) ++ create .meter meter [] ++
  ((connectNodes [.node ⟨sampler.id, sampler.outputCount⟩, .node ⟨gain.id, gain.outputCount⟩,
    .node ⟨meter.id, meter.outputCount⟩]).getD []) ++
  ((connectNodes [.node ⟨gain.id, gain.outputCount⟩, .output]).getD []) ++
  [.change ⟨sampler.id, sampler.outputCount⟩ (.other (.sampler (.startNow n))), .start]

/-- A pass of the loop, `examples/src/bin/meter.rs:39-47`: the notifier of the meter runs, and the notifications are
taken. -/
def pass (meter : Dsp MeterNode) : List Api :=
  [.change ⟨meter.id, meter.outputCount⟩ (.meter .poll), .change ⟨meter.id, meter.outputCount⟩ (.meter .take)]

/-- The program of `examples/src/bin/meter.rs:16-53` for the file `sample`, when the loop makes `passes i` passes before
process call `i`. -/
noncomputable def program (sampleRate mf : Nat) (sample : Grid ℝ) (fade : Fade ℝ) (a b e : Id) (n : Nat)
    (passes : Nat → Nat) : Res (Nat → List Api) := do
  let sampler ← (NodeKind.sampler sample fade).make sampleRate mf a
  let gain ← (NodeKind.effect (.gain 2)).make sampleRate mf b
  let meter ← MeterNode.make sampleRate e 2 0 300000000 2
  return fun i =>
    (if i = 0 then setUp (fromDuration (duration sample.frames sampleRate)) n sampler gain meter else []) ++
      (List.replicate (passes i) (pass meter)).flatten

end MeterExample
end Rawdio
