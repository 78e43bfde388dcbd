import Verif.Model.SamplerNode
import Verif.Spec.Chain
import Verif.Spec.Sampler

/-!
# Specification of a sampler in an engine
-/

namespace Rawdio
namespace Sampler

variable {S : Type}

/-- The history of a sampler whose node has `channels` channels: the events sent come with the next block, in the order
sent, and the buffers to fill are silent. `sent` have been sent already. -/
def blocks [Zero S] (channels : Nat) : List SamplerEvent → List (ChainEvent SamplerEvent) → List (SamplerBlock S)
  | _, [] => []
  | sent, .change _ e :: es => blocks channels (sent ++ [e]) es
  | sent, .block t n :: es => ⟨sent, t, ⟨channels, n, silence⟩⟩ :: blocks channels [] es

/-- Buffers one after the other, as long as the blocks they belong to. -/
def joined [Zero S] : List (SamplerBlock S) → List (Grid S) → Nat → Nat → S
  | b :: bs, g :: gs => followed b.out.frames g.val (joined bs gs)
  | _, _ => silence

/-- A loop ends after it starts. -/
def ProperLoop (e : SamplerEvent) : Prop :=
  ∀ loopStart loopEnd, e.eventType = .enableLoop loopStart loopEnd → loopStart < loopEnd

/-- One event is sent to node `id`, before call `i`. -/
def sendsOnly (id : Id) (i : Nat) (e : SamplerEvent) (j : Nat) : List (Id × SamplerEvent) := if j = i then [(id, e)] else []

/-- At least as many as the blocks of some process calls. -/
def blocksIn {P C : Type} (full : Nat) (ks : List (Call S P C)) : Nat :=
  (ks.map fun k => k.output.frameCount / full + 1).sum

/-- A signal that is a sample from frame `M` on, and silent before and after. -/
def playsAt [Zero S] (sample : Grid S) (M c F : Nat) : S :=
  if c < sample.channels ∧ M ≤ F ∧ F - M < sample.frames then sample.val c (F - M) else 0

end Sampler
end Rawdio
