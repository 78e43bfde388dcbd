import Mathlib.Logic.Relation
import Verif.Spec.Patch

/-!
# Specification of a processing order
-/

namespace Rawdio
namespace Patch

variable {E : Type}

/-- There is a connection from `a` to `b`. -/
def Joined (p : Patch E) (a b : Id) : Prop := ∃ c ∈ p.conns, c.src = a ∧ c.dst = b

/-- No signal path leads from a node back to itself. -/
def Acyclic (p : Patch E) : Prop := ∀ n, ¬ Relation.TransGen p.Joined n n

/-- At most one connection between each ordered pair of nodes. -/
def NoParallel (p : Patch E) : Prop := (p.conns.map (fun c => (c.src, c.dst))).Nodup

/-- A valid processing order lists every node exactly once and the source of every connection
before its destination. -/
structure ValidOrder (p : Patch E) (order : List Id) : Prop where
  nodup : order.Nodup
  complete : ∀ n, n ∈ order ↔ n ∈ p.nodes
  sorted : ∀ c ∈ p.conns, ∃ before between after,
    order = before ++ c.src :: (between ++ c.dst :: after)

end Patch
end Rawdio
