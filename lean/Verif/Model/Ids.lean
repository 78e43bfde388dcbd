import Mathlib.Data.Nat.Basic
import Mathlib.Logic.Function.Basic

/-!
# `commands/id.rs`: identifiers

A thread runs `Id::generate` as a sequence of atomic accesses to the counter; the scheduler picks the thread
that makes the next access.  `fetch_add` is one access (also with `Ordering::Relaxed`: a read-modify-write always
reads the last value of its location).  The counter has `2 ^ width` values.
-/

namespace Rawdio

/-- One atomic access to a counter.  `fetchAdd n` is `AtomicUsize::fetch_add(n)`, `commands/id.rs:13`; the other
two are what a version without `fetch_add` would use. -/
inductive Access where
  | fetchAdd (n : Nat)
  | load
  | store

/-- The accesses made by `Id::generate`, `commands/id.rs:11-14`; the value of the last read is returned. -/
def generateAccesses : List Access := [.fetchAdd 1]

/-- The counter, what each thread has left to do with what it has read, and the identifiers returned so far with
the thread they were returned to (`commands/id.rs:12`). -/
structure IdState where
  next : Nat
  todo : Nat → List Access × Nat
  returned : List (Nat × Nat)

namespace IdState

/-- The counter starts at 0, `commands/id.rs:12`; every thread is about to call a function that makes `accesses`. -/
def init (accesses : List Access) : IdState := ⟨0, fun _ => (accesses, 0), []⟩

/-- The effect of an access on the counter and on the value read, `commands/id.rs:13`. -/
def access (width next seen : Nat) : Access → Nat × Nat
  | .fetchAdd n => ((next + n) % 2 ^ width, next)
  | .load => (next, next)
  | .store => ((seen + 1) % 2 ^ width, seen)

/-- The thread `t` makes its next access; after the last one the call returns and the thread calls again
(`commands/id.rs:11-14`). -/
def step (width : Nat) (accesses : List Access) (s : IdState) (t : Nat) : IdState :=
  match s.todo t with
  | ([], seen) => { s with todo := Function.update s.todo t (accesses, seen) }
  | (a :: rest, seen) =>
    let r := access width s.next seen a
    if rest = [] then ⟨r.1, Function.update s.todo t (accesses, r.2), s.returned ++ [(t, r.2)]⟩
    else ⟨r.1, Function.update s.todo t (rest, r.2), s.returned⟩

/-- The accesses of the threads (`commands/id.rs:13`) in the order of `schedule`. -/
def run (width : Nat) (accesses : List Access) (schedule : List Nat) : IdState :=
  schedule.foldl (step width accesses) (init accesses)

end IdState
end Rawdio
