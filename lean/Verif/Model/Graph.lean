import Verif.Model.HMap

/-!
# `realtime/graph.rs`, `realtime/edge.rs`, `realtime/node.rs`

The patch graph: nodes and edges in hash maps, the edges of a node threaded on singly linked lists
through `outgoing`/`next_out` and `incoming`/`next_in`.
-/

namespace Rawdio

/-- `realtime/graph.rs:10-14`. -/
inductive Direction
  | outgoing
  | incoming
  deriving DecidableEq

/-- `realtime/edge.rs:3-9`. -/
structure Edge (E : Type) where
  fromNode : Id
  toNode : Id
  data : E
  nextOut : Option Id
  nextIn : Option Id

/-- `realtime/edge.rs:12-20`. -/
def Edge.new {E : Type} (fromNode toNode : Id) (data : E) : Edge E :=
  ⟨fromNode, toNode, data, none, none⟩

/-- `realtime/node.rs:3-7`. -/
structure Node (N : Type) where
  data : N
  outgoing : Option Id
  incoming : Option Id

/-- `realtime/node.rs:9-17`. -/
def Node.new {N : Type} (data : N) : Node N := ⟨data, none, none⟩

/-- `realtime/graph.rs:16-19`. -/
structure Graph (N E : Type) where
  nodes : HMap Id (Node N)
  edges : HMap Id (Edge E)

namespace Graph

variable {N E : Type}

/-- `realtime/graph.rs:22-27`. -/
def empty : Graph N E := ⟨[], []⟩

/-- The selection of the next edge by direction, `realtime/graph.rs:231-234`. -/
def nextOf (dir : Direction) (e : Edge E) : Option Id :=
  match dir with
  | .outgoing => e.nextOut
  | .incoming => e.nextIn

/-- The selection of the first edge by direction, `realtime/graph.rs:236-239`. -/
def firstOf (dir : Direction) (n : Node N) : Option Id :=
  match dir with
  | .outgoing => n.outgoing
  | .incoming => n.incoming

/-- `EdgeIterator::next`, `realtime/graph.rs:218-245`: the id produced is also the new iterator
state. -/
def edgeNext (g : Graph N E) (node : Id) (dir : Direction) (cur : Option Id) : Option Id :=
  match g.nodes.get? node with
  | none => none
  | some n =>
    match cur with
    | some e =>
      match g.edges.get? e with
      | none => none
      | some edge => nextOf dir edge
    | none => firstOf dir n

/-- Draining an `EdgeIterator` until it returns `None` (`realtime/graph.rs:30`,
`realtime/dsp_graph.rs:298`, `:335`).  A Rust iterator has no bound; the fuel given below exceeds the
number of edges, so running out of it means that the linked list is cyclic and the loop would never
end. -/
def edgeWalk (g : Graph N E) (node : Id) (dir : Direction) : Nat → Option Id → Res (List Id)
  | 0, _ => .error .diverge
  | fuel + 1, cur =>
    match g.edgeNext node dir cur with
    | none => .ok []
    | some e => do
      let rest ← edgeWalk g node dir fuel (some e)
      return e :: rest

/-- All ids produced by `edge_iterator(node_id, direction)`, `realtime/graph.rs:120-126`. -/
def edgeIds (g : Graph N E) (node : Id) (dir : Direction) : Res (List Id) :=
  g.edgeWalk node dir (g.edges.length + 1) none

/-- The node at the far end of an edge, `realtime/graph.rs:306-309`. -/
def farEnd (dir : Direction) (e : Edge E) : Id :=
  match dir with
  | .outgoing => e.toNode
  | .incoming => e.fromNode

/-- `NodeIterator::next`, `realtime/graph.rs:294-317`: the node produced and the new iterator
state. -/
def nodeNext (g : Graph N E) (node : Id) (dir : Direction) (cur : Option Id) :
    Option Id × Option Id :=
  match g.edgeNext node dir cur with
  | some e =>
    match g.edges.get? e with
    | some edge => (some (farEnd dir edge), some e)
    | none => (none, some e)
  | none => (none, none)

/-- Draining a `NodeIterator` until it returns `None` (`realtime/graph.rs:113`, `:133`). -/
def nodeWalk (g : Graph N E) (node : Id) (dir : Direction) : Nat → Option Id → Res (List Id)
  | 0, _ => .error .diverge
  | fuel + 1, cur =>
    match g.nodeNext node dir cur with
    | (none, _) => .ok []
    | (some n, cur') => do
      let rest ← nodeWalk g node dir fuel cur'
      return n :: rest

/-- All ids produced by `node_iter(node_id, direction)`, `realtime/graph.rs:116-118`. -/
def nodeIds (g : Graph N E) (node : Id) (dir : Direction) : Res (List Id) :=
  g.nodeWalk node dir (g.edges.length + 1) none

/-- `realtime/graph.rs:29-31`. -/
def lastEdgeId (g : Graph N E) (node : Id) (dir : Direction) : Res (Option Id) := do
  let ids ← g.edgeIds node dir
  return ids.getLast?

/-- Writing `next_out` (`next_in`) of an edge, `realtime/graph.rs:42`, `:55`, `:156`, `:163`. -/
def Edge.setNext (dir : Direction) (v : Option Id) (e : Edge E) : Edge E :=
  match dir with
  | .outgoing => { e with nextOut := v }
  | .incoming => { e with nextIn := v }

/-- Writing `outgoing` (`incoming`) of a node, `realtime/graph.rs:47`, `:60`, `:182`, `:189`. -/
def Node.setFirst (dir : Direction) (v : Option Id) (n : Node N) : Node N :=
  match dir with
  | .outgoing => { n with outgoing := v }
  | .incoming => { n with incoming := v }

/-- Appending an edge to one of the two linked lists of a node: the two `match` statements
`realtime/graph.rs:39-50` and `:52-63`, which differ in the direction only. -/
def link (g : Graph N E) (node : Id) (dir : Direction) (edgeId : Id) : Res (Graph N E) := do
  match ← g.lastEdgeId node dir with
  | some last => return { g with edges := g.edges.update last (Edge.setNext dir (some edgeId)) }
  | none => return { g with nodes := g.nodes.update node (Node.setFirst dir (some edgeId)) }

/-- `Graph::add_edge`, `realtime/graph.rs:33-68`.  `edgeId` is the value returned by
`Id::generate()` at line 37. -/
def addEdge (g : Graph N E) (edgeId fromNode toNode : Id) (data : E) : Res (Graph N E) := do
  if !g.nodes.contains fromNode then throw .panic
  if !g.nodes.contains toNode then throw .panic
  let g ← g.link fromNode .outgoing edgeId
  let g ← g.link toNode .incoming edgeId
  return { g with edges := g.edges.insert edgeId (Edge.new fromNode toNode data) }

/-- The test of `realtime/graph.rs:73`. -/
def joins (a b : Id) (e : Edge E) : Bool := e.fromNode == a && e.toNode == b

/-- `Graph::find_edge_between_nodes`, `realtime/graph.rs:70-75`: the first match in the iteration
order of the hash map. -/
def findEdge (g : Graph N E) (σ : IterOrder Id) (a b : Id) : Option Id :=
  (g.edges.iterKeys σ).find? (fun i => ((g.edges.get? i).map (joins a b)).getD false)

/-- The update of one edge in `replace_edge_connections`, `realtime/graph.rs:152-167`. -/
def Edge.replaceNext (dir : Direction) (find : Id) (rep : Option Id) (e : Edge E) : Edge E :=
  if nextOf dir e = some find then Edge.setNext dir rep e else e

/-- The update of one node in `replace_node_connections`, `realtime/graph.rs:178-193`. -/
def Node.replaceFirst (dir : Direction) (find : Id) (rep : Option Id) (n : Node N) : Node N :=
  if firstOf dir n = some find then Node.setFirst dir rep n else n

/-- `replace_connections`, `realtime/graph.rs:197-205` (with `:145-169` and `:171-195`). -/
def replaceConnections (g : Graph N E) (dir : Direction) (find : Id) (rep : Option Id) :
    Graph N E :=
  { nodes := g.nodes.mapVals (Node.replaceFirst dir find rep)
    edges := g.edges.mapVals (Edge.replaceNext dir find rep) }

/-- `Graph::remove_edge`, `realtime/graph.rs:77-90`.  The `remove_entry` at line 81 cannot fail, as the
id was found in the map; the model keeps the case. -/
def removeEdge (g : Graph N E) (σ : IterOrder Id) (a b : Id) : Graph N E × Option E :=
  match g.findEdge σ a b with
  | none => (g, none)
  | some i =>
    match g.edges.get? i with
    | none => (g, none)
    | some edge =>
      let g := { g with edges := g.edges.remove i }
      let g := g.replaceConnections .outgoing i edge.nextOut
      let g := g.replaceConnections .incoming i edge.nextIn
      (g, some edge.data)

/-- `Graph::remove_node`, `realtime/graph.rs:92-100`. -/
def removeNode (g : Graph N E) (i : Id) : Res (Graph N E × Option N) :=
  match g.nodes.get? i with
  | none => .ok (g, none)
  | some n =>
    if n.incoming.isSome then .error .panic
    else if n.outgoing.isSome then .error .panic
    else .ok ({ g with nodes := g.nodes.remove i }, some n.data)

/-- `Graph::get_node_mut`, `realtime/graph.rs:102-104`: the node's data. -/
def getNode (g : Graph N E) (i : Id) : Option N := (g.nodes.get? i).map Node.data

/-- Replacing a node's data (`realtime/node.rs:4`), through the reference of `realtime/graph.rs:102-104`. -/
def Node.setData (d : N) (n : Node N) : Node N := { n with data := d }

/-- Writing through the reference returned by `Graph::get_node_mut`, `realtime/graph.rs:102-104`. -/
def setNode (g : Graph N E) (i : Id) (d : N) : Graph N E :=
  { g with nodes := g.nodes.update i (Node.setData d) }

/-- `Graph::add_node_with_id`, `realtime/graph.rs:106-109`. -/
def addNode (g : Graph N E) (i : Id) (d : N) : Res (Graph N E) :=
  if g.nodes.contains i then .error .panic
  else .ok { g with nodes := g.nodes.insert i (Node.new d) }

/-- `Graph::is_connected_to`, `realtime/graph.rs:111-114`.  (`any` may stop early; since the walk is
finite in every reachable graph, see `C07_walk`, this makes no difference.) -/
def isConnectedTo (g : Graph N E) (a b : Id) : Res Bool := do
  let ids ← g.nodeIds a .outgoing
  return ids.any (fun i => i == b)

/-- `Graph::get_edge`, `realtime/graph.rs:128-130`. -/
def getEdge (g : Graph N E) (i : Id) : Option (Edge E) := g.edges.get? i

/-- `Graph::connection_count`, `realtime/graph.rs:132-134`. -/
def connectionCount (g : Graph N E) (node : Id) (dir : Direction) : Res Nat := do
  let ids ← g.nodeIds node dir
  return ids.length

/-- `Graph::all_node_ids`, `realtime/graph.rs:136-138`, in the given iteration order. -/
def allNodeIds (g : Graph N E) (σ : IterOrder Id) : List Id := g.nodes.iterKeys σ

/-- `Graph::node_count`, `realtime/graph.rs:140-142`. -/
def nodeCount (g : Graph N E) : Nat := g.nodes.length

end Graph
end Rawdio
