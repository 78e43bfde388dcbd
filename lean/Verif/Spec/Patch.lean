import Verif.Model.Graph

/-!
# Specification of a patch

What a user of the engine means by "the nodes and connections that exist": a list of nodes and a
list of connections in the order in which they were made.  It does not mention the hash maps or the
linked lists of the implementation; only `Direction` and `Id` are shared with the model.
-/

namespace Rawdio

/-- A connection: its identity, source, destination and channel data. -/
structure Conn (E : Type) where
  id : Id
  src : Id
  dst : Id
  data : E

/-- The end of a connection that belongs to the node whose outgoing (incoming) connections are
listed. -/
def Conn.near {E : Type} (dir : Direction) (c : Conn E) : Id :=
  match dir with
  | .outgoing => c.src
  | .incoming => c.dst

/-- The other end of a connection. -/
def Conn.far {E : Type} (dir : Direction) (c : Conn E) : Id :=
  match dir with
  | .outgoing => c.dst
  | .incoming => c.src

/-- A patch: the nodes that exist and the connections that exist, oldest first. -/
structure Patch (E : Type) where
  nodes : List Id
  conns : List (Conn E)

namespace Patch

variable {E : Type}

/-- The patch of a new engine. -/
def empty : Patch E := ⟨[], []⟩

/-- The outgoing (incoming) connections of a node, oldest first. -/
def at' (p : Patch E) (n : Id) (dir : Direction) : List (Conn E) :=
  p.conns.filter (fun c => c.near dir == n)

end Patch

/-- The edit requests of `realtime/graph.rs`.  `connect` carries the identity given to the new
connection. -/
inductive GraphCmd (N E : Type)
  | addNode (i : Id) (d : N)
  | removeNode (i : Id)
  | connect (k a b : Id) (d : E)
  | disconnect (a b : Id)

/-- The identities of the connections made by a list of requests. -/
def GraphCmd.newIds {N E : Type} : List (GraphCmd N E) → List Id
  | [] => []
  | .connect k _ _ _ :: cs => k :: newIds cs
  | .addNode _ _ :: cs => newIds cs
  | .removeNode _ :: cs => newIds cs
  | .disconnect _ _ :: cs => newIds cs

/-- What one edit request is allowed to do to a patch. -/
inductive Patch.Step {N E : Type} : Patch E → GraphCmd N E → Patch E → Prop
  | addNode (p : Patch E) (i : Id) (d : N) : i ∉ p.nodes →
      Step p (.addNode i d) ⟨p.nodes ++ [i], p.conns⟩
  | removeNode (p : Patch E) (i : Id) : (∀ c ∈ p.conns, c.src ≠ i ∧ c.dst ≠ i) →
      Step p (.removeNode i) ⟨p.nodes.filter (· != i), p.conns⟩
  | connect (p : Patch E) (k a b : Id) (d : E) : a ∈ p.nodes → b ∈ p.nodes →
      Step p (.connect k a b d) ⟨p.nodes, p.conns ++ [⟨k, a, b, d⟩]⟩
  | disconnect (p : Patch E) (a b : Id) (before after : List (Conn E)) (c : Conn E) :
      c.src = a → c.dst = b → p.conns = before ++ c :: after →
      Step p (.disconnect a b) ⟨p.nodes, before ++ after⟩
  | disconnectNone (p : Patch E) (a b : Id) : (∀ c ∈ p.conns, ¬ (c.src = a ∧ c.dst = b)) →
      Step p (.disconnect a b) p

/-- A sequence of edit requests. -/
inductive Patch.Steps {N E : Type} : Patch E → List (GraphCmd N E) → Patch E → Prop
  | nil (p : Patch E) : Steps p [] p
  | cons {p q r : Patch E} {c : GraphCmd N E} {cs : List (GraphCmd N E)} :
      Patch.Step p c q → Steps q cs r → Steps p (c :: cs) r

namespace Graph

variable {N E : Type}

/-- The model function called for each edit request, given the iteration order of the edge map at
that moment (`realtime/graph.rs:33`, `:77`, `:92`, `:106`). -/
def exec (σ : IterOrder Id) (g : Graph N E) : GraphCmd N E → Res (Graph N E)
  | .addNode i d => g.addNode i d
  | .removeNode i => do
    let r ← g.removeNode i
    return r.1
  | .connect k a b d => g.addEdge k a b d
  | .disconnect a b => .ok (g.removeEdge σ a b).1

/-- Running a list of edit requests; the iteration order may be different each time. -/
def execAll (σ : Nat → IterOrder Id) : Nat → Graph N E → List (GraphCmd N E) → Res (Graph N E)
  | _, g, [] => .ok g
  | t, g, c :: cs => do
    let g ← g.exec (σ t) c
    execAll σ (t + 1) g cs

end Graph

/-- A graph shows exactly the patch `p`: the same nodes; each connection once and every connection under its identity with
its ends and data and nothing under any other identity; and walking any node in either direction
terminates and lists exactly its connections (and the nodes at their far ends), oldest first. -/
structure Graph.Shows {N E : Type} (g : Graph N E) (p : Patch E) : Prop where
  nodes : ∀ i, i ∈ p.nodes ↔ ∃ d, g.getNode i = some d
  ids : (p.conns.map Conn.id).Nodup
  conns : ∀ i, (∃ c ∈ p.conns, c.id = i) ↔ ∃ e, g.getEdge i = some e
  ends : ∀ c ∈ p.conns, ∃ e, g.getEdge c.id = some e ∧ e.fromNode = c.src ∧ e.toNode = c.dst ∧
    e.data = c.data
  edges : ∀ n ∈ p.nodes, ∀ dir, g.edgeIds n dir = .ok ((p.at' n dir).map Conn.id)
  nbrs : ∀ n ∈ p.nodes, ∀ dir, g.nodeIds n dir = .ok ((p.at' n dir).map (Conn.far dir))

end Rawdio
