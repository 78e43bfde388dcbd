import Verif.Spec.MixedNodes

/-!
# Specification of oscillators whose frequency is automated
-/

namespace Rawdio
namespace NodeKind

/-- The requests that can be made of a node: changes of the parameters that it has, and for other nodes as in `Allows`. -/
def Takes : NodeKind → MixedRequest → Prop
  | effect k, .parameter r => r.name ∈ k.names
  | k, r => k.Allows r

/-- If the node is an oscillator, its frequency is positive in the first `total` frames, and at no frame does it come to a whole
number of cycles. -/
def NeverWhole (sampleRate total : Nat) (i : Id) (es : List (ChainEvent MixedRequest)) : NodeKind → Prop
  | effect (.oscillator f n table) =>
    let v := (FxKind.oscillator f n table).track sampleRate (es.filterMap (ChainEvent.seen i MixedRequest.parameter?)) i "frequency"
    ∀ F < total, 0 < v F ∧ ¬ Oscillator.Whole (Oscillator.cycles v sampleRate (F + 1))
  | _ => True

end NodeKind
end Rawdio

namespace Rawdio
namespace RowExamples

/-- The frequency in the example that sweeps an oscillator, `t` seconds after the start: up to a hundred times the frequency
in four seconds. -/
noncomputable def chirp (frequency t : ℝ) : ℝ := if t < 4 then frequency * 100 ^ (t / 4) else 100 * frequency

/-- How loud it is, `t` seconds after the start: up in a tenth of a second, and down in the last tenth of four seconds. -/
noncomputable def chirpLevel (t : ℝ) : ℝ :=
  if t < 1 / 10 then 10 * t else if t < 39 / 10 then 1 else if t < 4 then 40 - 10 * t else 0

end RowExamples
end Rawdio
