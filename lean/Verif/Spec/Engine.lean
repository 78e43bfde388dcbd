import Verif.Model.Processor
import Verif.Spec.Render

/-!
# Specification of the engine

What a user sees of an engine, in terms of the commands sent and the buffers processed.
-/

namespace Rawdio

variable {S P C : Type}

namespace Command

/-- The answer given by the most recent command that has one. -/
def latest {α : Type} (f : Command P C → Option α) (cs : List (Command P C)) : Option α :=
  cs.reverse.findSome? f

/-- Start and stop. -/
def transport : Command P C → Option Bool
  | .start => some true
  | .stop => some false
  | _ => none

/-- The engine runs if the most recent of the start and stop commands is a start. -/
def running (cs : List (Command P C)) : Bool := (latest transport cs).getD false

/-- The node named by a connect-to-output request. -/
def toOutput : Command P C → Option Id
  | .connectToOutput ep => some ep.dsp
  | _ => none

/-- The node named by a connect-to-input request. -/
def toInput : Command P C → Option Id
  | .connectToInput ep => some ep.dsp
  | _ => none

/-- Commands that the nodes of the library send (`graph/graph_node.rs`): the system output is
connected to the output of a node, the system input to the input of a node. -/
def Api : Command P C → Prop
  | .connectToOutput ep => ep.kind = .output
  | .connectToInput ep => ep.kind = .input
  | _ => True

end Command

/-- A process call with usable buffers of any size, and input for every output frame. -/
structure Call.Valid (k : Call S P C) : Prop where
  inWF : k.input.WF
  outWF : k.output.WF
  writable : k.output.Writable
  enough : k.output.frameCount ≤ k.input.frameCount
  api : ∀ c ∈ k.commands, c.1.Api

/-- All commands received in a sequence of calls, in order. -/
def history (ks : List (Call S P C)) : List (Command P C) :=
  ks.flatMap (fun k => k.commands.map Prod.fst)

/-- The number of frames processed while running, when `before` are the commands received earlier. -/
def framesRun (before : List (Command P C)) : List (Call S P C) → Nat
  | [] => 0
  | k :: ks =>
    (if Command.running (before ++ k.commands.map Prod.fst) then k.output.frameCount else 0) +
      framesRun (before ++ k.commands.map Prod.fst) ks

/-- The timestamp nearest to the time of a frame: no timestamp is nearer. -/
def NearestTime (frames sampleRate : Nat) (t : Int) : Prop :=
  ∀ u : Int, |(t : ℚ) / 2 ^ 32 - (frames : ℚ) / sampleRate| ≤
    |(u : ℚ) / 2 ^ 32 - (frames : ℚ) / sampleRate|

/-- The frames from `a` up to `b` divided into consecutive blocks (offset and length), each of which
is full or the last. -/
def Tiles (full : Nat) : Nat → Nat → List (Nat × Nat) → Prop
  | a, b, [] => a = b
  | a, b, (offset, n) :: rest =>
    offset = a ∧ 0 < n ∧ n ≤ full ∧ (n = full ∨ a + n = b) ∧ Tiles full (a + n) b rest

/-- What one use of the graph was given and what it returned. -/
structure Entry (S : Type) where
  input : Buf S
  output : Buf S
  time : Int
  result : Buf S

/-- The graph observed: as `run`, but a list of the uses is kept. -/
def observed {γ : Type} (run : Nat → γ → Buf S → Buf S → Int → Res (Buf S × γ)) (offset : Nat)
    (g : γ × List (Entry S)) (input output : Buf S) (t : Int) :
    Res (Buf S × (γ × List (Entry S))) := do
  let r ← run offset g.1 input output t
  return (r.1, (r.2, g.2 ++ [⟨input, output, t, r.1⟩]))

/-- An entry belongs to the block of `n` frames at an offset: it was given that window of the input
and of the output, and the time of the first frame of the call advanced by the offset. -/
structure Entry.Covers (e : Entry S) (input : Buf S) (channels : Nat) (now : Int) (sampleRate : Nat)
    (block : Nat × Nat) : Prop where
  inChannels : e.input.channelCount = input.channelCount
  inFrames : e.input.frameCount = block.2
  inSamples : ∀ c f, f < block.2 → e.input.sample? c f = input.sample? c (block.1 + f)
  outChannels : e.output.channelCount = channels
  outFrames : e.output.frameCount = block.2
  time : e.time = Timestamp.incrementedBySamples now block.1 sampleRate

/-- A graph that, in the states `I`, behaves as it should: given a slice it returns the slice with
other samples, and leaves the rest of the buffer behind the slice alone. -/
def WritesSlice {γ : Type} (I : γ → Prop)
    (run : Nat → γ → Buf S → Buf S → Int → Res (Buf S × γ)) : Prop :=
  ∀ offset g input p r t o' g', I g → ValidBlock input (.slice p r true) →
    run offset g input (.slice p r true) t = .ok (o', g') →
    I g' ∧ ∃ p', o' = .slice p' r true ∧ p.SameShape p' ∧ p'.WF ∧ p'.Writable ∧
      ∀ c f, ¬ (r.channel ≤ c ∧ c < r.channel + r.channelCount ∧ r.frame ≤ f ∧
        f < r.frame + r.frameCount) → p'.sample? c f = p.sample? c f

/-- A whole process call of a running engine, from frame `offset` on: blocks of at most `full` frames
up to frame `total` are rendered one after the other, each with the node states left by the one
before; frame `f` of channel `c` of the result is `out c f`. -/
inductive RenderedCall [Zero S] [Add S] (ops : NodeOps S P C) (p : Patch Connection)
    (full total channels maxChannels sampleRate : Nat) (now : Int) (input : Buf S)
    (fromSystem toSystem : Option Id) (out : Nat → Nat → Option S) :
    Nat → (Id → Option (Dsp P)) → (Id → Option (Dsp P)) → Prop
  | done (offset : Nat) (states : Id → Option (Dsp P)) : total ≤ offset →
      RenderedCall ops p full total channels maxChannels sampleRate now input fromSystem toSystem out
        offset states states
  | block (offset frames : Nat) (before mid after : Id → Option (Dsp P)) (window : Buf S)
      (sig : Signals S) : offset < total → frames = min full (total - offset) →
      window.channelCount = input.channelCount →
      (∀ c f, f < frames → window.sample? c f = input.sample? c (offset + f)) →
      Rendered ops p before frames sampleRate
        (Timestamp.incrementedBySamples now offset sampleRate)
        (p.received (arrivesFromSystem fromSystem window
          (min input.channelCount maxChannels) frames)) sig mid →
      (∀ c f, c < channels → f < frames → out c (offset + f) = some
        (match toSystem with
        | some n => if n ∈ p.nodes ∧ c < maxChannels then sig n c f else 0
        | none => 0)) →
      RenderedCall ops p full total channels maxChannels sampleRate now input fromSystem toSystem out
        (offset + frames) mid after →
      RenderedCall ops p full total channels maxChannels sampleRate now input fromSystem toSystem out
        offset before after

/-! ## The engine as a user sees it -/

/-- What a user knows of an engine: the patch, the node behind each identity with its state, whether
it runs, which nodes are connected to the system, and the number of frames rendered. -/
structure View (P : Type) where
  patch : Patch Connection
  node : Id → Option (Dsp P)
  running : Bool
  fromSystem : Option Id
  toSystem : Option Id
  frames : Nat

/-- A new engine. -/
def View.empty : View P := ⟨Patch.empty, fun _ => none, false, none, none, 0⟩

/-- What one command means. -/
inductive Command.Effect (ops : NodeOps S P C) : View P → Command P C → View P → Prop
  | start (V : View P) : Effect ops V .start { V with running := true }
  | stop (V : View P) : Effect ops V .stop { V with running := false }
  | addDsp (V : View P) (d : Dsp P) (q : Patch Connection) :
      Patch.Step V.patch (GraphCmd.addNode d.id d) q →
      Effect ops V (.addDsp d)
        { V with patch := q, node := fun i => if i = d.id then some d else V.node i }
  | removeDsp (V : View P) (i : Id) (q : Patch Connection) :
      Patch.Step V.patch (GraphCmd.removeNode i : GraphCmd (Dsp P) Connection) q →
      Effect ops V (.removeDsp i)
        { V with patch := q, node := fun j => if j = i then none else V.node j }
  | change (V : View P) (i : Id) (r : C) (d : Dsp P) (s : P) : V.node i = some d →
      ops.change d.state r = .ok s →
      Effect ops V (.change i r)
        { V with node := fun j => if j = i then some { d with state := s } else V.node j }
  | changeAbsent (V : View P) (i : Id) (r : C) : V.node i = none → Effect ops V (.change i r) V
  | addConnection (V : View P) (k : Connection) (id : Id) (q : Patch Connection) :
      (∀ x ∈ V.patch.conns, x.id ≠ id) →
      Patch.Step V.patch
        (GraphCmd.connect id k.source.dsp k.destination.dsp k : GraphCmd (Dsp P) Connection) q →
      Effect ops V (.addConnection k) { V with patch := q }
  | removeConnection (V : View P) (k : Connection) (q : Patch Connection) :
      Patch.Step V.patch
        (GraphCmd.disconnect k.source.dsp k.destination.dsp : GraphCmd (Dsp P) Connection) q →
      Effect ops V (.removeConnection k) { V with patch := q }
  | connectToOutput (V : View P) (ep : Endpoint) :
      Effect ops V (.connectToOutput ep) { V with toSystem := some ep.dsp }
  | connectToInput (V : View P) (ep : Endpoint) :
      Effect ops V (.connectToInput ep) { V with fromSystem := some ep.dsp }

/-- Commands that make no sense: a second node of the same identity, a connection of a node that is
not there, and the removal of a node that is still connected. -/
def Command.Refused (V : View P) : Command P C → Prop
  | .addDsp d => d.id ∈ V.patch.nodes
  | .removeDsp i => ∃ k ∈ V.patch.conns, k.src = i ∨ k.dst = i
  | .addConnection k => k.source.dsp ∉ V.patch.nodes ∨ k.destination.dsp ∉ V.patch.nodes
  | _ => False

/-- Commands that dispose of a node. -/
def Command.Disposes (V : View P) : Command P C → Prop
  | .removeDsp i => i ∈ V.patch.nodes ∧ ∀ k ∈ V.patch.conns, k.src ≠ i ∧ k.dst ≠ i
  | _ => False

/-- The number of requests to remove a node. -/
def Command.removals (cs : List (Command P C)) : Nat :=
  cs.countP (fun c => match c with
    | .removeDsp _ => true
    | _ => false)

/-- What a list of commands means. -/
inductive Command.Effects (ops : NodeOps S P C) : View P → List (Command P C) → View P → Prop
  | nil (V : View P) : Effects ops V [] V
  | cons {V W X : View P} {c : Command P C} {cs : List (Command P C)} :
      Command.Effect ops V c W → Effects ops W cs X → Effects ops V (c :: cs) X

/-- What one process call means, given the configured maximum frame count, maximum channel count and
sample rate: the commands first, then silence if the engine is stopped, and otherwise the rendered
patch, starting at the time of the first frame. -/
inductive View.Call [Zero S] [Add S] (ops : NodeOps S P C) (full maxChannels sampleRate : Nat) :
    View P → Rawdio.Call S P C → (Nat → Nat → Option S) → View P → Prop
  | stopped (V W : View P) (k : Rawdio.Call S P C) (out : Nat → Nat → Option S) :
      Command.Effects ops V (k.commands.map Prod.fst) W → W.running = false →
      (∀ c f, out c f =
        if c < k.output.channelCount ∧ f < k.output.frameCount then some 0 else none) →
      Call ops full maxChannels sampleRate V k out W
  | running (V W : View P) (k : Rawdio.Call S P C) (now : Int) (node : Id → Option (Dsp P))
      (out : Nat → Nat → Option S) :
      Command.Effects ops V (k.commands.map Prod.fst) W → W.running = true →
      NearestTime W.frames sampleRate now →
      RenderedCall ops W.patch full k.output.frameCount k.output.channelCount maxChannels sampleRate
        now k.input W.fromSystem W.toSystem out 0 W.node node →
      Call ops full maxChannels sampleRate V k out
        { W with node := node, frames := W.frames + k.output.frameCount }

/-- What a sequence of process calls means. -/
inductive View.Session [Zero S] [Add S] (ops : NodeOps S P C) (full maxChannels sampleRate : Nat) :
    List (Rawdio.Call S P C) → View P → Prop
  | nil : Session ops full maxChannels sampleRate [] View.empty
  | snoc {ks : List (Rawdio.Call S P C)} {V W : View P} {k : Rawdio.Call S P C}
      {out : Nat → Nat → Option S} : Session ops full maxChannels sampleRate ks V →
      View.Call ops full maxChannels sampleRate V k out W →
      Session ops full maxChannels sampleRate (ks ++ [k]) W

/-! ## Threads -/

/-- The commands sent, with the sending thread, in order. -/
def sent (as : List (Action S P C)) : List (Nat × Command P C) :=
  as.filterMap (fun a => match a with
    | .send i c => some (i, c)
    | _ => none)

/-- The commands applied by the audio thread, with the sending thread, in order. -/
def applied (as : List (Action S P C)) : List (Nat × Command P C) :=
  as.filterMap (fun a => match a with
    | .receive i c _ => some (i, c)
    | _ => none)

/-- The buffers of the process calls entered, in order. -/
def entered (as : List (Action S P C)) : List (Buf S × Buf S) :=
  as.filterMap (fun a => match a with
    | .enter input output => some (input, output)
    | _ => none)

/-- The commands of one thread. -/
def ofThread (i : Nat) (cs : List (Nat × Command P C)) : List (Nat × Command P C) :=
  cs.filter (fun c => c.1 == i)

/-- An engine as created, with nothing sent yet. -/
def System.fresh [Zero S] (sampleRate maxChannels maxFrames : Nat) : System S P C :=
  ⟨[], Processor.new sampleRate maxChannels maxFrames, none⟩

end Rawdio
