import Verif.Model.Effects
import Verif.Model.Client
import Verif.Model.Timestamp

/-!
# The example that renders oscillators through a gain and a pan

`examples/src/bin/offline_process.rs`, with any number of oscillators and with the levels and movements of the pan as
arguments. The values are within the ranges of the parameters (`effects/gain/gain_node.rs:21-22`,
`effects/pan/pan_node.rs:10-11`, `effects/oscillator/oscillator_node.rs:26-29`), so clamping is left out.
-/

namespace Rawdio
namespace OfflineExample

/-- The identity of an oscillator, its frequency and its level, `examples/src/bin/offline_process.rs:38`. -/
structure Voice where
  id : Id
  frequency : ℝ
  level : ℝ

/-- A node is made, `graph/graph_node.rs:13-32`. -/
def create (d : Dsp FxNode) : ApiCall FxNode ParameterRequest := .create d.id d.inputCount d.outputCount d.state

/-- The handle of a node, `graph/graph_node.rs:5-9`. -/
def handle (d : Dsp FxNode) : GraphNode := ⟨d.id, d.outputCount⟩

/-- `set_value_at_time(value, Timestamp::zero())`, `parameter/audio_parameter.rs:62-74`. -/
def setFromStart (d : Dsp FxNode) (name : String) (value : ℝ) : ApiCall FxNode ParameterRequest :=
  .change (handle d) (.change name ⟨value, Timestamp.zero, .immediate⟩)

/-- `Oscillator::sine` with two channels, `examples/src/bin/offline_process.rs:36-39`,
`effects/oscillator/oscillator_node.rs:56-60`. -/
noncomputable def kind (v : Voice) : FxKind := .oscillator v.frequency 2 (Oscillator.makeSine Oscillator.tableSize 1)

/-- The calls that a program makes: `create_oscillators`, `create_gain`, `create_pan`, `make_connections` and `start`,
`examples/src/bin/offline_process.rs:22-28`, `:35-77`. -/
noncomputable def program (sampleRate maximumFrameCount : Nat) (voices : List Voice) (gainId panId : Id) (level : ℝ)
    (pans : List (ParameterChange ℝ)) : Res (List (ApiCall FxNode ParameterRequest)) := do
  let oscillators ← voices.mapM fun v => (kind v).make sampleRate maximumFrameCount v.id
  let gain ← (FxKind.gain 2).make sampleRate maximumFrameCount gainId
  let pan ← (FxKind.pan 2).make sampleRate maximumFrameCount panId
  return (oscillators.zip voices).flatMap (fun d => [create d.1, setFromStart d.1 "gain" d.2.level]) ++
    [create gain, setFromStart gain "gain" level] ++
    create pan :: pans.map (fun c => .change (handle pan) (.change "pan" c)) ++
    oscillators.map (fun d => .connectTo (handle d) (handle gain)) ++
    [.connectTo (handle gain) (handle pan), .connectToOutput (handle pan), .start]

/-- The movements of the pan, `examples/src/bin/offline_process.rs:58-66`. -/
noncomputable def panMoves : List (ParameterChange ℝ) :=
  [⟨-1, Timestamp.zero, .immediate⟩, ⟨1, Timestamp.fromSeconds 2, .linear Timestamp.zero⟩,
    ⟨-1, Timestamp.fromSeconds 4, .linear (Timestamp.fromSeconds 2)⟩]

end OfflineExample
end Rawdio
