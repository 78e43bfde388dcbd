import Verif.Model.Buffer
import Verif.Model.TopologicalSort

/-!
# `realtime/dsp_graph.rs`, `graph/dsp.rs`, `graph/*buffer_pool.rs`: rendering one block

`S` is the type of samples, `P` the type of node states (processor and parameters together), `C` the
type of parameter requests.  What a node does to its state and to the samples it is given is
arbitrary (`NodeOps`).  A node is assumed to write only inside the output slice it is handed
(slices do not enforce this, see `C32_slice_channel_bound_violated`).
-/

namespace Rawdio

/-- `graph/endpoint.rs:4-7`. -/
inductive EndpointType
  | input
  | output
  deriving DecidableEq, Repr

/-- `graph/endpoint.rs:10-13`. -/
structure Endpoint where
  kind : EndpointType
  dsp : Id
  deriving DecidableEq, Repr

/-- `graph/connection.rs:6-12`. -/
structure Connection where
  source : Endpoint
  sourceChannel : Nat
  destination : Endpoint
  destinationChannel : Nat
  channelCount : Nat
  deriving DecidableEq, Repr

namespace Connection
/-- `Connection::new`, `graph/connection.rs:15-23`. -/
def new (source destination : Id) (channelCount : Nat) : Connection :=
  ⟨⟨.output, source⟩, 0, ⟨.input, destination⟩, 0, channelCount⟩
/-- `graph/connection.rs:25-28`. -/
def withSourceChannel (c : Connection) (channel : Nat) : Connection :=
  { c with sourceChannel := channel }
/-- `graph/connection.rs:30-33`. -/
def withDestinationChannel (c : Connection) (channel : Nat) : Connection :=
  { c with destinationChannel := channel }
end Connection

/-- `graph/dsp.rs:9-15`; `state` stands for the fields `processor` and `parameters`. -/
structure Dsp (P : Type) where
  id : Id
  inputCount : Nat
  outputCount : Nat
  state : P

/-- What a node is given for one block: `ProcessContext`, `graph/dsp.rs:18-30`, and the frame count
and sample rate given to its parameters at `:83-87`.  The two buffers are given by the samples they
show (`none` outside the slice). -/
structure NodeBlock (S : Type) where
  frames : Nat
  sampleRate : Nat
  time : Int
  input : Nat → Nat → Option S
  output : Nat → Nat → Option S

/-- The behaviour of nodes, arbitrary: `run` is `graph/dsp.rs:82-95` (parameters, then
`DspProcessor::process_audio`) and returns the samples left in the output slice and the new state;
`change` is `graph/dsp.rs:98-114`. -/
structure NodeOps (S P C : Type) where
  run : P → NodeBlock S → Res ((Nat → Nat → S) × P)
  change : P → C → Res P

/-- The samples a `dyn AudioBuffer` shows to a node through `get_sample`
(`buffer/audio_buffer.rs:150-153`) inside its channel and frame counts. -/
def Buf.view {S : Type} (b : Buf S) (c f : Nat) : Option S :=
  if c < b.channelCount ∧ f < b.frameCount then (b.getSample ⟨c, f⟩).toOption else none

/-- A node writing its output slice (`graph/dsp.rs:90-95`): each channel is replaced through
`get_channel_data_mut`. -/
def Buf.writeAll {S : Type} (b : Buf S) (g : Nat → Nat → S) : Res (Buf S) :=
  (List.range b.channelCount).foldlM
    (fun b c => b.modifyPart ⟨c, 0⟩ b.frameCount (fun _ => (List.range b.frameCount).map (g c))) b

/-- The buffer behind a slice once the borrow ends (`realtime/dsp_graph.rs:221`). -/
def Buf.parent {S : Type} : Buf S → Buf S
  | .slice p _ _ => p
  | b => b

/-- `Dsp::process_audio`, `graph/dsp.rs:73-96`. -/
def Dsp.processAudio {S P C : Type} (ops : NodeOps S P C) (dsp : Dsp P) (input output : Buf S)
    (t : Int) : Res (Buf S × Dsp P) :=
  if input.channelCount = dsp.inputCount then
    if output.channelCount = dsp.outputCount then do
      let r ← ops.run dsp.state
        ⟨output.frameCount, output.sampleRate, t, input.view, output.view⟩
      let output ← output.writeAll r.1
      return (output, { dsp with state := r.2 })
    else .error .panic
  else .error .panic

/-- `BufferPools`, `realtime/dsp_graph.rs:4-7`, with `buffer/buffer_pool.rs:3-5` (a stack, its top
first) and `graph/assigned_buffer_pool.rs:5-7`. -/
structure Pools (S : Type) where
  free : List (Buf S)
  assigned : HMap Endpoint (Buf S)

namespace Pools

variable {S : Type}

/-- `BufferPool::add`, `buffer/buffer_pool.rs:25-28`. -/
def giveBack [Zero S] (p : Pools S) (b : Buf S) : Res (Pools S) := do
  let b ← b.clear
  return { p with free := b :: p.free }

/-- `AssignedBufferPool::add`, `graph/assigned_buffer_pool.rs:23-25`. -/
def assign (p : Pools S) (ep : Endpoint) (b : Buf S) : Pools S :=
  { p with assigned := p.assigned.insert ep b }

/-- `get_buffer_with_endpoint`, `realtime/dsp_graph.rs:314-325`. -/
def getBuffer (p : Pools S) (ep : Endpoint) : Res (Buf S × Pools S) :=
  match p.assigned.get? ep with
  | some b => .ok (b, { p with assigned := p.assigned.remove ep })
  | none =>
    match p.free with
    | b :: free => .ok (b, { p with free := free })
    | [] => .error .panic

/-- One round of the loop at `realtime/dsp_graph.rs:103-105` with
`graph/assigned_buffer_pool.rs:35-44`. -/
def drainOne [Zero S] (p : Pools S) (ep : Endpoint) : Res (Pools S) :=
  match p.assigned.get? ep with
  | some b => giveBack { p with assigned := p.assigned.remove ep } b
  | none => .error .panic

/-- The loop at `realtime/dsp_graph.rs:103-105`, given the order in which the hash map hands out its
keys. -/
def drain [Zero S] (p : Pools S) (σ : IterOrder Endpoint) : Res (Pools S) :=
  (p.assigned.iterKeys σ).foldlM drainOne p

end Pools

/-- `MixBehaviour`, `realtime/dsp_graph.rs:244-247`. -/
inductive MixBehaviour
  | overwrite
  | mix
  deriving DecidableEq, Repr

/-- Everything about one process call that the code leaves to chance: the iteration orders of the
hash maps during sorting (`realtime/topological_sort.rs:29,36,39`) and draining
(`graph/assigned_buffer_pool.rs:36`), and the memory alignment of the buffers mixed for each
connection (`buffer/audio_buffer.rs:180`, see `Kernels.mixInto`). -/
structure Env where
  sortInit : IterOrder Id
  sortDeps : Nat → IterOrder Id
  sortNodes : Nat → IterOrder Id
  drain : IterOrder Endpoint
  align : Id → Nat → Nat × Nat

/-- The environment used by examples (stands for one hasher, `graph/assigned_buffer_pool.rs:6`). -/
def Env.plain : Env :=
  ⟨IterOrder.id, fun _ => IterOrder.id, fun _ => IterOrder.id, IterOrder.id, fun _ _ => (0, 0)⟩

/-- `realtime/dsp_graph.rs:9-19`; `garbage` counts the disposed nodes waiting in the bounded channel
`garbage_collection_tx`, `order` is `topological_sort.order`. -/
structure DspGraph (S P : Type) where
  graph : Graph (Dsp P) Connection
  order : List Id
  inputEndpoint : Option Endpoint
  outputEndpoint : Option Endpoint
  garbage : Nat
  needsSort : Bool
  pools : Pools S
  maxChannels : Nat
  maxFrames : Nat

namespace DspGraph

variable {S P C : Type}

/-- `realtime/dsp_graph.rs:21`. -/
def maxBuffers : Nat := 1024

/-- `realtime/dsp_graph.rs:24`. -/
def garbageCapacity : Nat := 512

/-- `DspGraph::new`, `realtime/dsp_graph.rs:27-55`, and `BufferPool::new`,
`buffer/buffer_pool.rs:8-19`. -/
def new [Zero S] (maxFrames maxChannels sampleRate : Nat) : DspGraph S P where
  graph := Graph.empty
  order := []
  inputEndpoint := none
  outputEndpoint := none
  garbage := 0
  needsSort := false
  pools := ⟨List.replicate maxBuffers (Buf.new maxFrames maxChannels sampleRate), []⟩
  maxChannels := maxChannels
  maxFrames := maxFrames

/-- The `match` in `mix_endpoint`, `realtime/dsp_graph.rs:264-279`. -/
def mixBuffer [Add S] (al : Nat → Nat × Nat) (out b : Buf S)
    (sourceChannel destinationChannel channelCount frames : Nat) : MixBehaviour → Res (Buf S)
  | .overwrite =>
    out.copyFrom b (Loc.ofChannel sourceChannel) (Loc.ofChannel destinationChannel) channelCount
      frames
  | .mix =>
    out.addFrom al b (Loc.ofChannel sourceChannel) (Loc.ofChannel destinationChannel) channelCount
      frames

/-- `mix_endpoint`, `realtime/dsp_graph.rs:250-283`. -/
def mixEndpoint [Add S] (al : Nat → Nat × Nat) (assigned : HMap Endpoint (Buf S)) (ep : Endpoint)
    (out : Buf S) (sourceChannel destinationChannel channelCount frames : Nat)
    (behaviour : MixBehaviour) : Res (HMap Endpoint (Buf S) × Buf S) :=
  match assigned.get? ep with
  | none => .ok (assigned, out)
  | some b => do
    let out ← mixBuffer al out b sourceChannel destinationChannel channelCount frames behaviour
    return ((assigned.remove ep).insert ep b, out)

/-- The state of the loop at `realtime/dsp_graph.rs:292-311`. -/
structure MixState (S : Type) where
  assigned : HMap Endpoint (Buf S)
  out : Buf S
  behaviour : MixBehaviour

/-- One round of the loop at `realtime/dsp_graph.rs:294-311`. -/
def mixEdge [Add S] (env : Env) (g : Graph (Dsp P) Connection) (frames : Nat) (s : MixState S)
    (edgeId : Id) : Res (MixState S) :=
  match g.getEdge edgeId with
  | none => .error .panic
  | some e => do
    let r ← mixEndpoint (env.align edgeId) s.assigned ⟨.output, e.fromNode⟩ s.out
      e.data.sourceChannel e.data.destinationChannel e.data.channelCount frames s.behaviour
    return ⟨r.1, r.2, .mix⟩

/-- `copy_output_from_dependencies`, `realtime/dsp_graph.rs:285-312`. -/
def copyOutputFromDependencies [Add S] (env : Env) (assigned : HMap Endpoint (Buf S))
    (g : Graph (Dsp P) Connection) (i : Id) (out : Buf S) (frames : Nat) :
    Res (HMap Endpoint (Buf S) × Buf S) := do
  let ids ← g.edgeIds i .incoming
  let s ← ids.foldlM (mixEdge env g frames) ⟨assigned, out, .overwrite⟩
  return (s.assigned, s.out)

/-- What `prepare_input` hands back: the buffer, the endpoint it belongs to and the pools
(`realtime/dsp_graph.rs:332`, `:351`, `:365`, `:390`). -/
structure Prepared (S : Type) where
  buffer : Buf S
  endpoint : Endpoint
  pools : Pools S

/-- `prepare_n_input_node`, `realtime/dsp_graph.rs:327-346`. -/
def prepareMany [Add S] (env : Env) (pools : Pools S) (g : Graph (Dsp P) Connection) (i : Id)
    (frames : Nat) : Res (Prepared S) := do
  let r ← pools.getBuffer ⟨.input, i⟩
  let m ← copyOutputFromDependencies env r.2.assigned g i r.1 frames
  return ⟨m.2, ⟨.input, i⟩, { r.2 with assigned := m.1 }⟩

/-- `prepare_zero_input_node`, `realtime/dsp_graph.rs:348-358`. -/
def prepareZero (pools : Pools S) (i : Id) : Res (Prepared S) := do
  let r ← pools.getBuffer ⟨.input, i⟩
  return ⟨r.1, ⟨.input, i⟩, r.2⟩

/-- `prepare_single_input_node`, `realtime/dsp_graph.rs:360-383`. -/
def prepareSingle [Add S] (env : Env) (pools : Pools S) (g : Graph (Dsp P) Connection) (i : Id)
    (frames : Nat) : Res (Prepared S) := do
  let ids ← g.edgeIds i .incoming
  match ids with
  | [] => .error .panic
  | edgeId :: _ =>
    match g.getEdge edgeId with
    | none => .error .panic
    | some e =>
      if e.data.destinationChannel = 0 ∧ e.data.sourceChannel = 0 then do
        let r ← pools.getBuffer ⟨.output, e.fromNode⟩
        return ⟨r.1, ⟨.output, e.fromNode⟩, r.2⟩
      else prepareMany env pools g i frames

/-- `prepare_input`, `realtime/dsp_graph.rs:385-396`. -/
def prepareInput [Add S] (env : Env) (pools : Pools S) (g : Graph (Dsp P) Connection) (i : Id)
    (frames : Nat) : Res (Prepared S) := do
  let n ← g.connectionCount i .incoming
  if n = 0 then prepareZero pools i
  else if n = 1 then prepareSingle env pools g i frames
  else prepareMany env pools g i frames

/-- `realtime/dsp_graph.rs:207-221`: running the node, if it exists, on slices of its two buffers. -/
def runNode (ops : NodeOps S P C) (g : Graph (Dsp P) Connection) (i : Id) (output input : Buf S)
    (frames : Nat) (t : Int) : Res (Buf S × Graph (Dsp P) Connection) :=
  match g.getNode i with
  | none => .ok (output, g)
  | some dsp => do
    let outputSlice ← output.sliceChannelsAndFrames frames dsp.outputCount true
    let inputSlice ← input.sliceChannelsAndFrames frames dsp.inputCount false
    let r ← dsp.processAudio ops inputSlice outputSlice t
    return (r.1.parent, g.setNode i r.2)

/-- `process_dsp`, `realtime/dsp_graph.rs:194-230`. -/
def processDsp [Zero S] [Add S] (ops : NodeOps S P C) (env : Env) (frames : Nat) (t : Int)
    (s : Pools S × Graph (Dsp P) Connection) (i : Id) :
    Res (Pools S × Graph (Dsp P) Connection) := do
  let o ← s.1.getBuffer ⟨.output, i⟩
  let inp ← prepareInput env o.2 s.2 i frames
  let r ← runNode ops s.2 i o.1 inp.buffer frames t
  let pools := inp.pools.assign ⟨.output, i⟩ r.1
  if inp.endpoint.kind = .input then do
    let pools ← pools.giveBack inp.buffer
    return (pools, r.2)
  else return (pools.assign inp.endpoint inp.buffer, r.2)

/-- `sort_graph`, `realtime/dsp_graph.rs:120-125`. -/
def sortGraph (env : Env) (G : DspGraph S P) : Res (DspGraph S P) :=
  if G.needsSort then do
    let order ← TopologicalSort.sort G.graph env.sortInit env.sortDeps env.sortNodes
    return { G with order := order, needsSort := false }
  else .ok G

/-- `realtime/dsp_graph.rs:71-83`. -/
def takeInput (pools : Pools S) (ep : Option Endpoint) (input : Buf S) (channels frames : Nat) :
    Res (Pools S) :=
  match ep with
  | none => .ok pools
  | some ep =>
    match pools.free with
    | [] => .ok pools
    | b :: free => do
      let b ← b.copyFrom input Loc.origin Loc.origin channels frames
      return Pools.assign { pools with free := free } ep b

/-- `realtime/dsp_graph.rs:87-101`. -/
def giveOutput [Add S] (pools : Pools S) (ep : Option Endpoint) (output : Buf S)
    (channels frames : Nat) : Res (Pools S × Buf S) :=
  match ep with
  | none => .ok (pools, output)
  | some ep => do
    let r ← mixEndpoint (fun _ => (0, 0)) pools.assigned ep output 0 0 channels frames .overwrite
    return ({ pools with assigned := r.1 }, r.2)

/-- `DspGraph::process`, `realtime/dsp_graph.rs:57-108`, with `process_dsps`, `:174-191`. -/
def process [Zero S] [Add S] (ops : NodeOps S P C) (env : Env) (G : DspGraph S P)
    (input output : Buf S) (t : Int) : Res (Buf S × DspGraph S P) := do
  let inChannels := min input.channelCount G.maxChannels
  let outChannels := min output.channelCount G.maxChannels
  let frames := min output.frameCount G.maxFrames
  let G ← G.sortGraph env
  let pools ← takeInput G.pools G.inputEndpoint input inChannels frames
  let r ← G.order.foldlM (processDsp ops env frames t) (pools, G.graph)
  let o ← giveOutput r.1 G.outputEndpoint output outChannels frames
  let pools ← o.1.drain env.drain
  return (o.2, { G with pools := pools, graph := r.2 })

/-- `add_dsp`, `realtime/dsp_graph.rs:110-114`. -/
def addDsp (G : DspGraph S P) (dsp : Dsp P) : Res (DspGraph S P) := do
  let g ← G.graph.addNode dsp.id dsp
  return { G with graph := g, needsSort := true }

/-- `remove_dsp`, `realtime/dsp_graph.rs:127-135`.  The send waits when the channel is full. -/
def removeDsp (G : DspGraph S P) (i : Id) : Res (DspGraph S P) := do
  let r ← G.graph.removeNode i
  match r.2 with
  | none => return { G with graph := r.1, needsSort := true }
  | some _ =>
    if G.garbage < garbageCapacity then
      return { G with graph := r.1, needsSort := true, garbage := G.garbage + 1 }
    else .error .block

/-- `request_parameter_change` and `cancel_parameter_changes`, `realtime/dsp_graph.rs:137-147`. -/
def changeParameter (ops : NodeOps S P C) (G : DspGraph S P) (i : Id) (c : C) :
    Res (DspGraph S P) :=
  match G.graph.getNode i with
  | none => .ok G
  | some dsp => do
    let state ← ops.change dsp.state c
    return { G with graph := G.graph.setNode i { dsp with state := state } }

/-- `add_connection`, `realtime/dsp_graph.rs:149-157`; `edgeId` is the identifier generated at
`realtime/graph.rs:37`. -/
def addConnection (G : DspGraph S P) (edgeId : Id) (c : Connection) : Res (DspGraph S P) := do
  let g ← G.graph.addEdge edgeId c.source.dsp c.destination.dsp c
  return { G with graph := g, needsSort := true }

/-- `remove_connection`, `realtime/dsp_graph.rs:159-164`. -/
def removeConnection (σ : IterOrder Id) (G : DspGraph S P) (c : Connection) : DspGraph S P :=
  { G with graph := (G.graph.removeEdge σ c.source.dsp c.destination.dsp).1, needsSort := true }

/-- `connect_to_output`, `realtime/dsp_graph.rs:166-168`. -/
def connectToOutput (G : DspGraph S P) (ep : Endpoint) : DspGraph S P :=
  { G with outputEndpoint := some ep }

/-- `connect_to_input`, `realtime/dsp_graph.rs:170-172`. -/
def connectToInput (G : DspGraph S P) (ep : Endpoint) : DspGraph S P :=
  { G with inputEndpoint := some ep }

end DspGraph
end Rawdio
