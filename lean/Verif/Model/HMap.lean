import Verif.Model.Basic

/-!
# `std::collections::HashMap`

The engine keeps nodes, edges and dependency counts in hash maps keyed by `Id`
(`realtime/graph.rs:7-8`, `realtime/topological_sort.rs:6`) and render buffers in a hash map keyed
by endpoint (`graph/assigned_buffer_pool.rs:7`).  A map is modelled by an association
list with at most one entry per key.  The order of the list has no meaning: wherever the code
iterates over a map and the order can matter, the model takes the iteration order as a parameter
(`IterOrder`) about which nothing is assumed except that it lists each entry once.
-/

namespace Rawdio

/-- A `HashMap<K, V>` (`realtime/graph.rs:7-8`, `graph/assigned_buffer_pool.rs:7`). -/
abbrev HMap (K V : Type) := List (K × V)

/-- An iteration order of a hash map: some permutation of the keys, chosen by the hasher
(`realtime/graph.rs:72`, `:137`, `realtime/topological_sort.rs:54`). -/
structure IterOrder (K : Type) where
  /-- the keys in the order in which they are visited -/
  order : List K → List K
  /-- each key is visited exactly once -/
  perm : ∀ l, (order l).Perm l

/-- One iteration order: the order of the association list itself (used by examples; stands for
one hasher, `realtime/graph.rs:72`). -/
def IterOrder.id {K : Type} : IterOrder K := ⟨fun l => l, fun l => List.Perm.refl l⟩

/-- Another iteration order: the reverse (used by examples; stands for another hasher,
`realtime/graph.rs:72`). -/
def IterOrder.rev {K : Type} : IterOrder K := ⟨List.reverse, List.reverse_perm⟩

namespace HMap

variable {K V W : Type} [DecidableEq K]

/-- `HashMap::keys` in the order of the association list (`realtime/graph.rs:137`). -/
def keys (m : HMap K V) : List K := m.map Prod.fst

/-- `HashMap::get` (`realtime/graph.rs:129`, `:219`, `:226`, `:305`). -/
def get? : HMap K V → K → Option V
  | [], _ => none
  | (k, v) :: m, i => if k = i then some v else get? m i

/-- `HashMap::contains_key` (`realtime/graph.rs:34`, `:35`, `:107`). -/
def contains (m : HMap K V) (i : K) : Bool := (m.get? i).isSome

/-- `HashMap::remove_entry` and `HashMap::remove` (`realtime/graph.rs:81`, `:93`,
`realtime/topological_sort.rs:36`). -/
def remove (m : HMap K V) (i : K) : HMap K V := m.filter (fun e => e.1 != i)

/-- `HashMap::insert` (`realtime/graph.rs:66`, `:108`, `realtime/topological_sort.rs:31`). -/
def insert (m : HMap K V) (i : K) (v : V) : HMap K V := (i, v) :: m.remove i

/-- `HashMap::get_mut` followed by an update of the value, or nothing if the key is absent
(`realtime/graph.rs:41-43`, `:46-48`, `:54-56`, `:59-61`, `:103`). -/
def update (m : HMap K V) (i : K) (f : V → V) : HMap K V :=
  m.map (fun e => if e.1 = i then (e.1, f e.2) else e)

/-- `HashMap::iter_mut` with an update of each value that does not depend on the order
(`realtime/graph.rs:151`, `:177`). -/
def mapVals (m : HMap K V) (f : V → W) : HMap K W := m.map (fun e => (e.1, f e.2))

/-- `HashMap::keys` or `HashMap::iter` in a given iteration order (`realtime/graph.rs:72`, `:137`,
`realtime/topological_sort.rs:54`, `graph/assigned_buffer_pool.rs:36`). -/
def iterKeys (m : HMap K V) (σ : IterOrder K) : List K := σ.order m.keys

end HMap
end Rawdio
