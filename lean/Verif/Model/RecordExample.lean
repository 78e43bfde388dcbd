import Verif.Model.Connect
import Verif.Model.MixedNodes
import Verif.Model.RecorderNode

/-!
# `examples/src/bin/record.rs`: recording the system input

`channels` is the number of channels of the input device (`AudioCallback::input_channel_count`, line 29).
-/

namespace Rawdio
namespace RecordExample

/-- Nodes of the example and requests to them, `examples/src/bin/record.rs:25-31`. -/
abbrev Api := ApiCall (WithRecorders ℝ MixedNode) (WithRecorders.Request MixedRequest)

/-- The levels of the mixer, `examples/src/bin/record.rs:69-73`. -/
noncomputable def levels (channels : Nat) : List SetLevel :=
  (List.range 2).flatMap fun output => (List.range channels).map fun input => ⟨input, output, Level.unity⟩

/-- What is done before the engine runs, `examples/src/bin/record.rs:25-33`, and the start, line 79; `m` is the new
mixer. -/
noncomputable def setUp (sampleRate channels : Nat) (duration : Int) (recorder first : Nat) (m : Dsp MixedNode) :
    List Api :=
  let r : Dsp (RecorderNode ℝ) := RecorderNode.node recorder sampleRate 2 first
  [.create recorder r.inputCount r.outputCount (.recorder r.state),
    .change ⟨recorder, r.outputCount⟩ (.recorder .recordNow),
    .change ⟨recorder, r.outputCount⟩ (.recorder (.stopAt duration)),
    .create m.id m.inputCount m.outputCount (.other m.state)] ++
  (levels channels).map (fun l => .change ⟨m.id, m.outputCount⟩ (.other (.level l))) ++
  ((connectNodes [.input, .node ⟨m.id, m.outputCount⟩, .node ⟨recorder, r.outputCount⟩]).getD []) ++ [.start]

/-- The program of `examples/src/bin/record.rs:12-40`, when `process_notifications` (line 83) runs `passes i` times
before process call `i`. The sample rate is an argument. -/
noncomputable def program (sampleRate mf channels : Nat) (duration : Int) (recorder mixer first : Nat)
    (passes : Nat → Nat) : Res (Nat → List Api) := do
  let m ← (NodeKind.mixer channels 2).make sampleRate mf mixer
  return fun i => (if i = 0 then setUp sampleRate channels duration recorder first m else []) ++
    List.replicate (passes i) (.change ⟨recorder, 0⟩ (.recorder .notifications))

/-- What `finish_recording` writes to the file, `examples/src/bin/record.rs:42-46`; the program panics if there is
nothing. -/
def written (s : RecorderNode ℝ) : Res (Grid ℝ) :=
  match s.recorder.currentRecording with
  | some g => .ok g
  | none => .error .panic

end RecordExample
end Rawdio
