import Verif.Spec.Client
import Verif.Spec.Render

/-!
# Specification of nodes that can be rendered

A node may fail to render a block in some states. `I` are the states, with the numbers of channels, in which it does
not, `A` are the requests, with the id of the node, that keep it in them.
-/

namespace Rawdio

variable {S P C : Type}

/-- Nodes in a state of `I` render every block of at most `full` frames and take every request of `A`, and are in a
state of `I` afterwards. -/
structure Healthy [Zero S] (ops : NodeOps S P C) (full sampleRate : Nat) (I : Dsp P → Prop) (A : Id → C → Prop) : Prop where
  run : ∀ (d : Dsp P) (n : Nat) (t : Int) (x : Nat → Nat → S), I d → 0 < n → n ≤ full →
    ∃ y s, ops.run d.state ⟨n, sampleRate, t, window d.inputCount n x, window d.outputCount n silence⟩ = .ok (y, s)
  keeps : ∀ (d : Dsp P) (n : Nat) (t : Int) (x : Nat → Nat → S) y s, I d → 0 < n → n ≤ full →
    ops.run d.state ⟨n, sampleRate, t, window d.inputCount n x, window d.outputCount n silence⟩ = .ok (y, s) →
    I { d with state := s }
  change : ∀ (d : Dsp P) (c : C), I d → A d.id c → ∃ s, ops.change d.state c = .ok s ∧ I { d with state := s }

/-- A call of the API that makes a node in a state of `I`, or a request of `A`, or something else. -/
def ApiCall.Healthy (I : Dsp P → Prop) (A : Id → C → Prop) : ApiCall P C → Prop
  | .create i inputs outputs s => I ⟨i, inputs, outputs, s⟩
  | .change i c => A i.id c
  | _ => True

end Rawdio
