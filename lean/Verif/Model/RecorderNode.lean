import Verif.Model.DspGraph
import Verif.Model.Recorder
import Verif.Model.Unbounded

/-!
# `effects/recorder/recorder_node.rs`: recorders among the nodes of an engine

Both ends of a recorder are in the state of its node. What the control thread does with a recorder happens between
process calls here; `Model/Recorder` says what happens when a channel is full.
-/

namespace Rawdio

/-- What the control thread does with a recorder: the functions of `effects/recorder/recorder_node.rs:79-105`, the
notifier of lines 66-73, and other recorders drawing sequence numbers from the same counter
(`effects/recorder/recorder_event.rs:22-25`). -/
inductive RecorderRequest
  | recordNow
  | stopNow
  | stopAt (time : Int)
  | takeRecording
  | notifications
  | numbersDrawn (count : Nat)

/-- The same as an action of `Model/Recorder`, `effects/recorder/recorder_node.rs:66-105`. -/
def RecorderRequest.action {S : Type} : RecorderRequest → RecorderAction S
  | recordNow => .recordNow
  | stopNow => .stopNow
  | stopAt t => .stopAt t
  | takeRecording => .takeRecording
  | notifications => .notifications
  | numbersDrawn n => .numbersDrawn n

/-- A recorder as a node, `effects/recorder/recorder_node.rs:13-20`, with the number of its channels and with what
`take_recording` (lines 103-105) has returned so far, in order. -/
structure RecorderNode (S : Type) where
  channelCount : Nat
  recorder : Recorder S
  taken : List (Grid S)

namespace RecorderNode

variable {S : Type}

/-- Recorders as nodes, `graph/dsp.rs:73-95`, `effects/recorder/recorder_processor.rs:136-162`. A recorder does not
write to its output. -/
noncomputable def ops [Zero S] : NodeOps S (RecorderNode S) RecorderRequest where
  run s b := do
    let r ← unbounded fun fuel => s.recorder.step fuel
      (.block ⟨s.channelCount, b.frames, fun c f => (b.input c f).getD 0⟩ b.time)
    return (fun c f => (b.output c f).getD 0, { s with recorder := r.1 })
  change s r := do
    let q ← s.recorder.step 0 r.action
    return { s with recorder := q.1, taken := s.taken ++ q.2.toList }

/-- A recorder that has just been made, `effects/recorder/recorder_node.rs:27-76`: it has no outputs. -/
def node [Zero S] (id : Id) (sampleRate channelCount firstNumber : Nat) : Dsp (RecorderNode S) :=
  ⟨id, channelCount, 0, ⟨channelCount, Recorder.new sampleRate channelCount firstNumber, []⟩⟩

end RecorderNode

/-- Nodes of an engine some of which are recorders, behind the trait objects of `graph/dsp.rs:12`. -/
inductive WithRecorders (S P : Type)
  | other (s : P)
  | recorder (s : RecorderNode S)

/-- What can be requested of them, `commands/command.rs:11-12` and `effects/recorder/recorder_node.rs:79-105`. -/
inductive WithRecorders.Request (C : Type)
  | other (c : C)
  | recorder (r : RecorderRequest)

namespace WithRecorders

variable {S P C : Type}

/-- `graph/dsp.rs:73-114` for nodes of which some are recorders. The handles have types, so that nothing is requested of
a node that it does not have. -/
noncomputable def ops [Zero S] (others : NodeOps S P C) : NodeOps S (WithRecorders S P) (Request C) where
  run s b := match s with
    | other s => do let r ← others.run s b; return (r.1, other r.2)
    | recorder s => do let r ← RecorderNode.ops.run s b; return (r.1, recorder r.2)
  change s c := match s, c with
    | other s, .other c => do return other (← others.change s c)
    | recorder s, .recorder r => do return recorder (← RecorderNode.ops.change s r)
    | _, _ => .error .panic

end WithRecorders
end Rawdio
