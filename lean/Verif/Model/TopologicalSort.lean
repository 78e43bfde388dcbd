import Verif.Model.Graph

/-!
# `realtime/topological_sort.rs`

The fields `dependency_count`, `order` and `ready_to_process` are cleared at the start of `sort`, so
the sort is modelled as a function of the graph.  Every iteration over a hash map takes its own
iteration order.
-/

namespace Rawdio
namespace TopologicalSort

variable {N E : Type}

/-- `node_without_dependencies`, `topological_sort.rs:52-57`. -/
def nodeWithoutDependencies (σ : IterOrder Id) (deps : HMap Id Nat) : Option Id :=
  (deps.iterKeys σ).find? (fun i => deps.get? i == some 0)

/-- `topological_sort.rs:29-32`. -/
def initDeps (g : Graph N E) (σ : IterOrder Id) : Res (HMap Id Nat) :=
  (g.allNodeIds σ).foldlM (fun deps i => do
    let n ← g.connectionCount i .incoming
    return deps.insert i n) []

/-- The body of the inner loop, `topological_sort.rs:39-43`. -/
def release (g : Graph N E) (next : Id) (deps : HMap Id Nat) (i : Id) : Res (HMap Id Nat) := do
  if ← g.isConnectedTo next i then
    match deps.get? i with
    | none => throw .panic
    | some 0 => throw .panic
    | some (k + 1) => return deps.insert i k
  else return deps

/-- The `while let` loop, `topological_sort.rs:34-45`.  `τ t` and `ρ t` are the iteration orders of
the dependency map and of the node map in iteration `t`.  Each iteration removes an entry of the
dependency map, so the fuel given below suffices; running out of it is reported as non-termination. -/
def loop (g : Graph N E) (τ ρ : Nat → IterOrder Id) : Nat → HMap Id Nat → List Id → Res (List Id)
  | 0, _, _ => .error .diverge
  | fuel + 1, deps, order =>
    match nodeWithoutDependencies (τ order.length) deps with
    | none => .ok order
    | some next => do
      let deps ← (g.allNodeIds (ρ order.length)).foldlM (release g next) (deps.remove next)
      loop g τ ρ fuel deps (order ++ [next])

/-- `sort`, `topological_sort.rs:24-50`; the assertion at line 47 is the last step. -/
def sort (g : Graph N E) (σ : IterOrder Id) (τ ρ : Nat → IterOrder Id) : Res (List Id) := do
  let deps ← initDeps g σ
  let order ← loop g τ ρ (g.nodeCount + 1) deps []
  if order.length = g.nodeCount then return order else throw .panic

end TopologicalSort
end Rawdio
