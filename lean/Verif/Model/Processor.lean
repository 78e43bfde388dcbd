import Verif.Model.DspGraph
import Verif.Model.Timestamp

/-!
# `realtime/processor.rs`, `engine/root.rs`, `commands/command.rs`: the engine

The audio thread (`Processor`), the command channel and the threads that send commands.
The clock is the raw timestamp published in the atomic `current_time`.
-/

namespace Rawdio

/-- `commands/command.rs:4-18`.  The two commands on parameters are one, as in
`DspGraph.changeParameter`. -/
inductive Command (P C : Type)
  | start
  | stop
  | addDsp (dsp : Dsp P)
  | removeDsp (id : Id)
  | change (id : Id) (request : C)
  | addConnection (connection : Connection)
  | removeConnection (connection : Connection)
  | connectToOutput (endpoint : Endpoint)
  | connectToInput (endpoint : Endpoint)

/-- What chance decides when one command is applied: how many identifiers other threads have
generated since the last connection was made (`commands/id.rs:11-14`, `realtime/graph.rs:37`), how
many disposed nodes the collector thread has taken since the last disposal
(`realtime/garbage_collector.rs:14-30`), and the iteration order of the edge map
(`realtime/graph.rs:72`). -/
structure Luck where
  gap : Nat
  collected : Nat
  order : IterOrder Id

/-- The luck used by examples (stands for one hasher, `realtime/graph.rs:72`). -/
def Luck.plain : Luck := ⟨0, 0, IterOrder.id⟩

/-- `realtime/processor.rs:7-17`.  `nextId` is a lower bound of the identifier counter
`commands/id.rs:12`: every connection made so far has a smaller identifier. -/
structure Processor (S P : Type) where
  started : Bool
  sampleRate : Nat
  framePosition : Nat
  currentTime : Int
  graph : DspGraph S P
  maxFrames : Nat
  nextId : Id

namespace Processor

variable {S P C : Type}

/-- `Processor::new`, `realtime/processor.rs:20-36`, with the clock of
`engine/root.rs:117-141`. -/
def new [Zero S] (sampleRate maxChannels maxFrames : Nat) : Processor S P where
  started := false
  sampleRate := sampleRate
  framePosition := 0
  currentTime := 0
  graph := DspGraph.new maxFrames maxChannels sampleRate
  maxFrames := maxFrames
  nextId := 0

/-- Disposed nodes being taken by the collector thread,
`realtime/garbage_collector.rs:14-30`. -/
def collect (G : DspGraph S P) (n : Nat) : DspGraph S P := { G with garbage := G.garbage - n }

/-- One round of the loop in `process_commands`, `realtime/processor.rs:89-111`. -/
def apply (ops : NodeOps S P C) (E : Processor S P) (c : Command P C × Luck) :
    Res (Processor S P) :=
  match c.1 with
  | .start => .ok { E with started := true }
  | .stop => .ok { E with started := false }
  | .addDsp dsp => do
    let G ← E.graph.addDsp dsp
    return { E with graph := G }
  | .removeDsp i => do
    let G ← (collect E.graph c.2.collected).removeDsp i
    return { E with graph := G }
  | .change i request => do
    let G ← E.graph.changeParameter ops i request
    return { E with graph := G }
  | .addConnection k => do
    let G ← E.graph.addConnection (E.nextId + c.2.gap) k
    return { E with graph := G, nextId := E.nextId + c.2.gap + 1 }
  | .removeConnection k => .ok { E with graph := E.graph.removeConnection c.2.order k }
  | .connectToOutput ep => .ok { E with graph := E.graph.connectToOutput ep }
  | .connectToInput ep => .ok { E with graph := E.graph.connectToInput ep }

/-- `process_commands`, `realtime/processor.rs:87-113`, given the commands received before the
channel was found empty. -/
def processCommands (ops : NodeOps S P C) (E : Processor S P) (cs : List (Command P C × Luck)) :
    Res (Processor S P) :=
  cs.foldlM (apply ops) E

/-- The loop of `process_graph`, `realtime/processor.rs:47-64`.  `run` stands for the call of
`DspGraph::process` at `:60-61`, and may depend on the offset through the environment only.
`fuel` bounds the number of rounds; running out of it is divergence. -/
def processLoop {γ : Type} (run : Nat → γ → Buf S → Buf S → Int → Res (Buf S × γ))
    (maxFrames sampleRate : Nat) (now : Int) (input : Buf S) :
    Nat → Nat → γ → Buf S → Res (Buf S × γ)
  | 0, _, _, _ => .error .diverge
  | fuel + 1, offset, g, output =>
    if offset < output.frameCount then do
      let frames := min (output.frameCount - offset) maxFrames
      let inputSlice ← input.sliceFrames offset frames false
      let outputSlice ← output.sliceFrames offset frames true
      let r ← run offset g inputSlice outputSlice
        (Timestamp.incrementedBySamples now offset sampleRate)
      processLoop run maxFrames sampleRate now input fuel (offset + frames) r.2 r.1.parent
    else .ok (output, g)

/-- `process_graph`, `realtime/processor.rs:38-65`.  Each round but the last advances by at least one
frame when the maximum is positive, so the fuel suffices (`C03_blocks_partial`); when the maximum is 0
no fuel does (`C03_blocks_violated`). -/
def processGraph {γ : Type} (run : Nat → γ → Buf S → Buf S → Int → Res (Buf S × γ))
    (maxFrames sampleRate : Nat) (now : Int) (input : Buf S) (g : γ) (output : Buf S) :
    Res (Buf S × γ) :=
  processLoop run maxFrames sampleRate now input (output.frameCount + 1) 0 g output

/-- `DspGraph::process` as called at `realtime/processor.rs:60-61`. -/
def runGraph [Zero S] [Add S] (ops : NodeOps S P C) (env : Nat → Env) (offset : Nat)
    (G : DspGraph S P) (input output : Buf S) (t : Int) : Res (Buf S × DspGraph S P) :=
  G.process ops (env offset) input output t

/-- `update_position`, `realtime/processor.rs:115-121`. -/
def updatePosition (E : Processor S P) (frames : Nat) : Processor S P :=
  { E with
    framePosition := E.framePosition + frames
    currentTime := Timestamp.fromSeconds ((E.framePosition + frames : Nat) / (E.sampleRate : ℚ)) }

/-- The part of `process` after the commands, `realtime/processor.rs:76-82`. -/
def render [Zero S] [Add S] (ops : NodeOps S P C) (env : Nat → Env) (E : Processor S P)
    (input output : Buf S) : Res (Buf S × Processor S P) :=
  if E.started then do
    let r ← processGraph (runGraph ops env) E.maxFrames E.sampleRate E.currentTime input E.graph
      output
    return (r.1, updatePosition { E with graph := r.2 } output.frameCount)
  else .ok (output, E)

/-- `AudioProcess::process`, `realtime/processor.rs:69-83`, when `cs` are the commands received. -/
def process [Zero S] [Add S] (ops : NodeOps S P C) (env : Nat → Env)
    (cs : List (Command P C × Luck)) (E : Processor S P) (input output : Buf S) :
    Res (Buf S × Processor S P) := do
  let output ← output.clear
  let E ← E.processCommands ops cs
  E.render ops env input output

end Processor

/-- One call of `AudioProcess::process` (`engine/audio_process.rs:4-7`, `realtime/processor.rs:69`): the
commands received during the call, the two buffers, and the environments of its blocks. -/
structure Call (S P C : Type) where
  commands : List (Command P C × Luck)
  input : Buf S
  output : Buf S
  env : Nat → Env

namespace Processor

variable {S P C : Type}

/-- A sequence of calls made by the audio thread on one `Processor` (`realtime/processor.rs:69`). -/
def calls [Zero S] [Add S] (ops : NodeOps S P C) : Processor S P → List (Call S P C) →
    Res (Processor S P)
  | E, [] => .ok E
  | E, k :: ks => do
    let r ← E.process ops k.env k.commands k.input k.output
    calls ops r.2 ks

end Processor

/-- The engine with its command channel and the control threads: `engine/root.rs:143-159` (an
unbounded channel of `crossbeam`, whose entries are tagged here with the sending thread), and the
audio thread, which is inside a process call when `buffers` is present (after
`realtime/processor.rs:72`). -/
structure System (S P C : Type) where
  channel : List (Nat × Command P C)
  engine : Processor S P
  buffers : Option (Buf S × Buf S)

/-- What can happen: some thread sends a command (`engine/root.rs:153-158`); the audio thread enters
a process call (`realtime/processor.rs:69-72`), receives one command and applies it (`:88-111`), or
finds the channel empty and renders (`:88`, `:76-82`). -/
inductive Action (S P C : Type)
  | send (thread : Nat) (c : Command P C)
  | enter (input output : Buf S)
  | receive (thread : Nat) (c : Command P C) (luck : Luck)
  | leave (env : Nat → Env) (result : Buf S)

/-- One step of the engine and its threads, `engine/root.rs:153-158`, `realtime/processor.rs:69-113`. -/
inductive System.Step {S P C : Type} [Zero S] [Add S] (ops : NodeOps S P C) :
    System S P C → Action S P C → System S P C → Prop
  | send (s : System S P C) (i : Nat) (c : Command P C) :
      Step ops s (.send i c) { s with channel := s.channel ++ [(i, c)] }
  | enter (channel : List (Nat × Command P C)) (E : Processor S P) (input output cleared : Buf S) :
      output.clear = .ok cleared →
      Step ops ⟨channel, E, none⟩ (.enter input output) ⟨channel, E, some (input, cleared)⟩
  | receive (channel : List (Nat × Command P C)) (i : Nat) (c : Command P C) (E E' : Processor S P)
      (b : Buf S × Buf S) (luck : Luck) :
      E.apply ops (c, luck) = .ok E' →
      Step ops ⟨(i, c) :: channel, E, some b⟩ (.receive i c luck) ⟨channel, E', some b⟩
  | leave (E E' : Processor S P) (input output output' : Buf S) (env : Nat → Env) :
      E.render ops env input output = .ok (output', E') →
      Step ops ⟨[], E, some (input, output)⟩ (.leave env output') ⟨[], E', none⟩

/-- A run of the engine and its threads: any interleaving of their steps
(`engine/root.rs:153-158`, `realtime/processor.rs:69-113`). -/
inductive System.Run {S P C : Type} [Zero S] [Add S] (ops : NodeOps S P C) :
    System S P C → List (Action S P C) → System S P C → Prop
  | nil (s : System S P C) : Run ops s [] s
  | snoc {s t u : System S P C} {as : List (Action S P C)} {a : Action S P C} :
      Run ops s as t → Step ops t a u → Run ops s (as ++ [a]) u

end Rawdio
