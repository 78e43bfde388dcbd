import Verif.Model.RowExamples
import Verif.Spec.MixedNodes

/-!
# Specification of nodes of different kinds in a row
-/

namespace Rawdio
namespace RowExamples

/-- `y` is what comes out at the end of a row of nodes over `total` frames when `x` goes into the first: each makes what it
makes of what comes out on the channels of the one before. -/
def Through (sampleRate total : Nat) (es : List (ChainEvent MixedRequest)) :
    List Part → (ℕ → ℕ → ℝ) → (ℕ → ℕ → ℝ) → Prop
  | [], x, y => y = x
  | [p], x, y => p.kind.Makes sampleRate total p.id es x y
  | p :: q :: ps, x, y => ∃ z, p.kind.Makes sampleRate total p.id es x z ∧
      Through sampleRate total es (q :: ps) (fun c F => if c < p.kind.outputs then z c F else 0) y

/-- Requests to nodes by number. -/
def asked (parts : List Part) (rs : List (Nat × MixedRequest)) : List (Id × MixedRequest) :=
  rs.filterMap fun x => parts[x.1]?.map fun p => (p.id, x.2)

/-- The requests to all nodes, in the order in which they are made. -/
def allRequests (parts : List Part) (later : List (Nat × MixedRequest)) : List (Id × MixedRequest) :=
  (parts.flatMap fun p => p.requests.map fun r => (p.id, r)) ++ asked parts later

/-- Where the sound is in the example that moves a tone, `t` seconds after the start: from left to right in four seconds. -/
noncomputable def panPosition (t : ℝ) : ℝ := if t < 4 then t / 2 - 1 else 1

/-- How far the tone is driven in the example that shapes it, `t` seconds after the start: up in five seconds, and down in
five seconds. -/
noncomputable def drivePosition (t : ℝ) : ℝ := if t < 5 then t / 5 else if t < 10 then 2 - t / 5 else 0

end RowExamples
end Rawdio
