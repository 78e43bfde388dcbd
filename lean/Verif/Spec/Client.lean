import Verif.Model.Client
import Verif.Spec.Patch
import Mathlib.Logic.Relation

/-!
# Specification of a program that uses the engine

What a program knows without looking at the engine: the handles it holds and the connections it has made.
-/

namespace Rawdio

/-- A connection a program has made. -/
structure Link where
  src : Id
  dst : Id
  sourceChannel : Nat
  destinationChannel : Nat
  channels : Nat

/-- A node a program holds. -/
structure Held where
  id : Id
  inputs : Nat
  outputs : Nat

/-- The nodes a program holds and the connections it has made and not undone. -/
structure Holding where
  nodes : List Held
  links : List Link

namespace Holding

/-- A program that has done nothing. -/
def empty : Holding := ⟨[], []⟩

/-- The program holds the node of this handle. -/
def Holds (h : Holding) (n : GraphNode) : Prop := ∃ x ∈ h.nodes, x.id = n.id ∧ x.outputs = n.outputCount

/-- One node is connected to the other. -/
def Joined (h : Holding) (a b : Id) : Prop := ∃ l ∈ h.links, l.src = a ∧ l.dst = b

/-- No signal path leads from a node back to itself. -/
def Acyclic (h : Holding) : Prop := ∀ n, ¬ Relation.TransGen h.Joined n n

variable {P C : Type}

/-- What a program holds after a call. -/
def after (h : Holding) : ApiCall P C → Holding
  | .create id inputs outputs _ => { h with nodes := h.nodes ++ [⟨id, inputs, outputs⟩] }
  | .connectTo a b => { h with links := h.links ++ [⟨a.id, b.id, 0, 0, a.outputCount⟩] }
  | .connectChannelsTo a b s d n => { h with links := h.links ++ [⟨a.id, b.id, s, d, n⟩] }
  | .disconnectFromNode a b => { h with links := h.links.filter fun l => ¬ (l.src = a.id ∧ l.dst = b.id) }
  | .drop a => { h with nodes := h.nodes.filter fun x => x.id ≠ a.id }
  | _ => h

/-- What the compiler enforces: handles are used while they are held, and every node has its own identity. -/
def Typed (h : Holding) : ApiCall P C → Prop
  | .create id _ _ _ => ∀ x ∈ h.nodes, x.id ≠ id
  | .connectToInput a => h.Holds a
  | .connectToOutput a => h.Holds a
  | .connectTo a b => h.Holds a ∧ h.Holds b
  | .connectChannelsTo a b _ _ _ => h.Holds a ∧ h.Holds b
  | .disconnectFromNode a b => h.Holds a ∧ h.Holds b
  | .drop a => h.Holds a
  | .change a _ => h.Holds a
  | .start => True
  | .stop => True

/-- What a program has to observe besides, for an engine with `maxChannels` channels: at most 1022 nodes and no
node with too many channels; no connection beyond the channels of the engine, twice between the same nodes, or
closing a loop; and no drop of a node that is connected. -/
def Careful (maxChannels : Nat) (h : Holding) : ApiCall P C → Prop
  | .create _ inputs outputs _ => inputs ≤ maxChannels ∧ outputs ≤ maxChannels ∧ h.nodes.length < 1022
  | .connectTo a b => ¬ h.Joined a.id b.id ∧ (h.after (.connectTo a b : ApiCall P C)).Acyclic
  | .connectChannelsTo a b s d n => ¬ h.Joined a.id b.id ∧ s + n ≤ maxChannels ∧ d + n ≤ maxChannels ∧
      (h.after (.connectChannelsTo a b s d n : ApiCall P C)).Acyclic
  | .drop a => ∀ l ∈ h.links, l.src ≠ a.id ∧ l.dst ≠ a.id
  | _ => True

end Holding

variable {P C : Type}

/-- A program all of whose calls are allowed. -/
def Allowed (allowed : Holding → ApiCall P C → Prop) : Holding → List (ApiCall P C) → Prop
  | _, [] => True
  | h, c :: cs => allowed h c ∧ Allowed allowed (h.after c) cs

/-- What a program holds at the end. -/
def Holding.afterAll (h : Holding) (program : List (ApiCall P C)) : Holding := program.foldl Holding.after h

/-- A connection of a patch as the program sees it. -/
def Conn.link (c : Conn Connection) : Link :=
  ⟨c.src, c.dst, c.data.sourceChannel, c.data.destinationChannel, c.data.channelCount⟩

/-- The number of nodes a program drops. -/
def drops (program : List (ApiCall P C)) : Nat :=
  program.countP fun c => match c with
    | .drop _ => true
    | _ => false

end Rawdio
