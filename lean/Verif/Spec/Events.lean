import Verif.Model.Events

/-! # Specification of timed events -/

namespace Rawdio

open TimedEvent

variable {E : Type} [TimedEvent E]

/-- The frame of a block in which a time falls: the last frame that is not after it, or frame 0 if it is
before the block. Sample times are exact fractions here. -/
def frameOf (frameStart t : Int) (sampleRate : Nat) : Nat :=
  ⌊((t - frameStart : Int) : ℚ) * sampleRate / 2 ^ 32⌋.toNat

/-- What a block should do: process the frames up to the frame of each event, then the event, and at
last the remaining frames. The reaction to an event also gets the time of its frame as the node counts
it, the sum of the lengths of the parts processed so far. -/
def playEvents {σ : Type} (render : σ → Nat → Nat → Res σ) (apply : σ → E → Int → Res σ)
    (sampleRate : Nat) (frameStart : Int) (frameCount : Nat) :
    List E → Nat → Int → σ → Res σ
  | [], position, _, s => render s position (frameCount - position)
  | e :: es, position, current, s =>
    let f := frameOf frameStart (time e) sampleRate
    let current := current + Timestamp.fromSamples ((f - position : Nat) : ℚ) sampleRate
    (render s position (f - position)).bind fun s =>
      (apply s e current).bind fun s =>
        playEvents render apply sampleRate frameStart frameCount es f current s

/-- Events in the order of their times, those with equal times in the order in which they were sent
(their sequence numbers). -/
def InTimeOrder (es : List E) : Prop :=
  es.Pairwise (fun a b => time a < time b ∨ (time a = time b ∧ sequenceNumber a ≤ sequenceNumber b))

end Rawdio
