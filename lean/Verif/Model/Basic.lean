/-!
# Basic vocabulary of the model

Outcomes of a computation of the engine.  Not a piece of the code itself: a Rust function that can
panic, wait forever or loop forever is modelled by a function into `Res`.
-/

namespace Rawdio

/-- How a call can fail to return normally.
`panic`: `assert!`/`unwrap`/`expect`/index out of bounds/`usize` underflow (for example
`realtime/graph.rs:34`, `realtime/dsp_graph.rs:323`).
`block`: waiting on a full bounded channel for another thread (for example
`effects/mixer/mixer_node.rs:54-59`).
`diverge`: a loop that never ends (for example `realtime/processor.rs:47-64`). -/
inductive Fault
  | panic
  | block
  | diverge
  deriving DecidableEq, Repr

/-- The result of a call that may fault; models the control flow of every function of the engine
that contains an assertion, an `unwrap`, an index or a subtraction
(see `Fault` for the cited lines). -/
abbrev Res (α : Type _) := Except Fault α

/-- `commands/id.rs:3-14`: identifiers are opaque 64-bit numbers; modelled as `Nat`
(wrap-around of the counter after 2^64 identifiers is not modelled here). -/
abbrev Id := Nat

end Rawdio
