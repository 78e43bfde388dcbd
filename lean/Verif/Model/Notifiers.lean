import Mathlib.Data.List.Basic

/-!
# `engine/root.rs`: notifiers

A notifier is a closure that can read and change whatever it has captured (`World`) and answers whether it wants to be
called again (`engine/context.rs`, `NotifierStatus`).  Notifiers are numbered in the order of registration; the
number is not in the code.  A notifier cannot reach the list itself: the list is borrowed during the pass.
-/

namespace Rawdio

/-- `Box<dyn Fn() -> NotifierStatus>`, `engine/root.rs:9`; `true` is `NotifierStatus::Continue`. -/
abbrev Notifier (World : Type) := World → World × Bool

/-- The part of `Root` that holds the notifiers, `engine/root.rs:5-11`, with everything they have captured and, for
each pass so far, the calls made with their answers. -/
structure Notifiers (World : Type) where
  notifiers : List (Nat × Notifier World)
  registered : Nat
  world : World
  passes : List (List (Nat × Bool))

/-- What the control thread does with notifiers, `engine/root.rs:34-41`. -/
inductive NotifierAction (World : Type) where
  /-- `add_notifier`, `engine/root.rs:34`. -/
  | add (f : Notifier World)
  /-- `process_notifications`, `engine/root.rs:38`. -/
  | pass

namespace Notifiers

variable {World : Type}

/-- `notifiers: Vec::new()`, `engine/root.rs:136`. -/
def init (world : World) : Notifiers World := ⟨[], 0, world, []⟩

/-- `retain`, `engine/root.rs:39-40`: each notifier is called once, front to back, and kept when it answers
`Continue`.  Gives the notifiers kept, the world after the calls and the calls. -/
def retain : List (Nat × Notifier World) → World → List (Nat × Notifier World) × World × List (Nat × Bool)
  | [], w => ([], w, [])
  | (i, f) :: rest, w =>
    let (w, status) := f w
    let (kept, w, calls) := retain rest w
    (if status then (i, f) :: kept else kept, w, (i, status) :: calls)

/-- `add_notifier` and `process_notifications`, `engine/root.rs:34-41`. -/
def step (s : Notifiers World) : NotifierAction World → Notifiers World
  | .add f => ⟨s.notifiers ++ [(s.registered, f)], s.registered + 1, s.world, s.passes⟩
  | .pass =>
    let (kept, w, calls) := retain s.notifiers s.world
    ⟨kept, s.registered, w, s.passes ++ [calls]⟩

/-- Any sequence of registrations and passes (`engine/root.rs:34-41`). -/
def run (world : World) (actions : List (NotifierAction World)) : Notifiers World := actions.foldl step (init world)

end Notifiers
end Rawdio
