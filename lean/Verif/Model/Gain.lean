import Verif.Model.DspGraph
import Verif.Model.Parameter

/-!
# `effects/gain/*`: the gain node

Samples and parameter values are real numbers; the conversion of the parameter to `f32` is left out, as in
`Model/Parameter`.
-/

namespace Rawdio
namespace Gain

/-- `process_audio`, `effects/gain/gain_processor.rs:12-31`, given the values of the parameter (`:13-15`).
`isZero`, `isOne` and `al` are as in `Buf.applyGain`. -/
def processAudio {S : Type} [Zero S] [Mul S] (isZero isOne : S → Bool) (al : Nat → Nat × Nat) (gain : List S)
    (input output : Buf S) : Res (Buf S) := do
  let output ← output.copyFrom input .origin .origin (min output.channelCount input.channelCount)
    output.frameCount
  output.applyGain isZero isOne al gain

/-- The parameter of a new node, `effects/gain/gain_node.rs:21-23,40-47`. It has no bounds. -/
noncomputable def initial : RealtimeParameter ℝ := .new realArith 1

/-- What `processAudio` makes of sample `x` of frame `f`, `effects/gain/gain_processor.rs:30` with
`buffer/audio_buffer.rs:250-266`. -/
noncomputable def sample (isZero isOne : ℝ → Bool) (gain : List ℝ) (x : ℝ) (f : Nat) : ℝ :=
  if gain.all isZero then 0 else if gain.all isOne then x else x * gain.getD f 0

/-- The node in the engine: `graph/dsp.rs:82-95` with `effects/gain/gain_processor.rs:12-31`, and
`graph/dsp.rs:98-108` with `parameter/realtime_parameter.rs:167-172`. The state is the parameter. The channels
that the input does not have keep what the output buffer contained. Only requests for changes are modelled, not
their cancellation (`graph/dsp.rs:109-113`). -/
noncomputable def ops (isZero isOne : ℝ → Bool) : NodeOps ℝ (RealtimeParameter ℝ) (ParameterChange ℝ) where
  run p b :=
    let gain := p.process realArith b.time b.frames b.sampleRate
    .ok (fun c f => sample isZero isOne gain.1 ((b.input c f).getD ((b.output c f).getD 0)) f, gain.2)
  change p c := .ok (p.addChange c)

end Gain
end Rawdio
