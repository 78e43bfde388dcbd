import Verif.Spec.Chain
import Verif.Spec.Client
import Verif.Spec.Effects

/-!
# Specification of nodes connected in any way

Every node has one signal for the whole session, and the connections are equations between the signals. There are no
blocks, no buffers and no order in which nodes are run.
-/

namespace Rawdio

variable {S P C : Type}

/-- What a program does to build a network: it makes nodes, connects them, requests changes and starts the engine. -/
def ApiCall.Builds : ApiCall P C → Prop
  | .disconnectFromNode _ _ => False
  | .drop _ => False
  | .stop => False
  | _ => True

/-- A request to a node. -/
def ApiCall.Requests : ApiCall P C → Prop
  | .change _ _ => True
  | _ => False

namespace Network

/-- The nodes that a program makes. -/
def made (program : List (ApiCall P C)) : List (Dsp P) :=
  program.filterMap fun c => match c with
    | .create id inputs outputs state => some ⟨id, inputs, outputs, state⟩
    | _ => none

/-- The requests that a program makes, with the nodes they are for. -/
def requests (program : List (ApiCall P C)) : List (Id × C) :=
  program.filterMap fun c => match c with
    | .change node r => some (node.id, r)
    | _ => none

/-- The connections that a program makes, in order. -/
def links (program : List (ApiCall P C)) : List Link :=
  program.filterMap fun c => match c with
    | .connectTo a b => some ⟨a.id, b.id, 0, 0, a.outputCount⟩
    | .connectChannelsTo a b s d n => some ⟨a.id, b.id, s, d, n⟩
    | _ => none

/-- The node that a program has connected to the system input last. -/
def input (program : List (ApiCall P C)) : Option Id :=
  program.reverse.findSome? fun c => match c with
    | .connectToInput a => some a.id
    | _ => none

/-- The node that a program has connected to the system output last. -/
def output (program : List (ApiCall P C)) : Option Id :=
  program.reverse.findSome? fun c => match c with
    | .connectToOutput a => some a.id
    | _ => none

end Network

/-- What a connection brings to channel `c` of its destination. -/
def Link.brings [Zero S] (l : Link) (sig : Signals S) (c F : Nat) : S :=
  if l.destinationChannel ≤ c ∧ c < l.destinationChannel + l.channels then
    sig l.src (l.sourceChannel + (c - l.destinationChannel)) F
  else 0

namespace Network

/-- What goes into a node: `x` if it is connected to the system input, or else the sum of what its connections bring,
in the order in which they were made. -/
def arriving [Zero S] [Add S] (links : List Link) (input : Option Id) (x : Nat → Nat → S) (sig : Signals S) (n : Id)
    (c F : Nat) : S :=
  ((links.filter fun l => l.dst = n).map fun l => l.brings sig c F).foldl (· + ·)
    (if input = some n then x c F else 0)

/-- The signals of a network over some events: what comes out of each node is what it makes of what goes into it. -/
def Plays [Zero S] [Add S] (ops : NodeOps S P C) (sampleRate : Nat) (nodes : List (Dsp P)) (links : List Link)
    (input : Option Id) (es : List (ChainEvent C)) (x : Nat → Nat → S) (sig : Signals S) : Prop :=
  ∀ d ∈ nodes, ∃ d', chainRun ops sampleRate [d] es (arriving links input x sig d.id) = .ok (sig d.id, [d'])

/-- A program that builds a network and starts the engine, `program 0`, before its first process call, and only makes
requests to the nodes later. -/
structure Program (program : Nat → List (ApiCall P C)) : Prop where
  builds : ∀ c ∈ program 0, c.Builds
  typed : Allowed Holding.Typed Holding.empty (program 0)
  starts : .start ∈ program 0
  requests : ∀ i, 0 < i → ∀ c ∈ program i, c.Requests

/-- No node has both the system input and another node connected to it, and a connection that is made channel by channel
from the first channel to the first channel and is the only one of its destination has all channels of its source
(`C14_inputs_are_sums_violated` shows what happens otherwise). -/
structure Plain (nodes : List (Dsp P)) (links : List Link) (input : Option Id) : Prop where
  single : ∀ l ∈ links, input ≠ some l.dst
  wide : ∀ l ∈ links, l.sourceChannel = 0 → l.destinationChannel = 0 →
    (links.filter fun m => m.dst = l.dst) = [l] → ∀ d ∈ nodes, d.id = l.src → d.outputCount ≤ l.channels

/-- The process calls of a program that makes the calls `program i` before process call `i`. -/
def Calls (program : Nat → List (ApiCall P C)) (ks : List (Call S P C)) : Prop :=
  ∀ i k, ks[i]? = some k → k.commands.map Prod.fst = (program i).map ApiCall.command

/-- The process calls of a program, `waiting` until it starts the engine and `ks` from then on: `program 0` arrives over
the calls of `waiting` and the first of `ks`, in any parts, and `program i` arrives at call `i` of `ks`. -/
structure Delivered (program : Nat → List (ApiCall P C)) (waiting ks : List (Call S P C)) : Prop where
  notStarted : .start ∉ history waiting
  part : history waiting <+: (program 0).map ApiCall.command
  first : ∀ k, ks[0]? = some k → history waiting ++ k.commands.map Prod.fst = (program 0).map ApiCall.command
  later : ∀ i k, 0 < i → ks[i]? = some k → k.commands.map Prod.fst = (program i).map ApiCall.command

/-- What is heard from an engine with `maxChannels` channels: the signal of the node that is connected to the output. -/
def heard [Zero S] (output : Option Id) (maxChannels : Nat) (sig : Signals S) (c F : Nat) : S :=
  if c < maxChannels then (output.elim 0 fun n => sig n c F) else 0

/-- No signal path leads from a node back to itself. -/
def Acyclic (links : List Link) : Prop := ∀ n, ¬ Relation.TransGen (fun a b => ∃ l ∈ links, l.src = a ∧ l.dst = b) n n

/-- Nodes that are effects. -/
def Made (sampleRate mf : Nat) (kinds : List (Id × FxKind)) (nodes : List (Dsp FxNode)) : Prop :=
  List.Forall₂ (fun q d => q.2.make sampleRate mf q.1 = .ok d) kinds nodes

end Network
end Rawdio
