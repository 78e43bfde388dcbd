import Verif.Model.DspGraph
import Verif.Model.Sampler
import Verif.Model.Unbounded

/-!
# `effects/sampler/sampler_node.rs`: a sampler as a node of an engine
-/

namespace Rawdio

/-- The node of a sampler, `effects/sampler/sampler_node.rs:15-40`, `effects/sampler/sampler_processor.rs:39-73`. It
has no inputs and the channels of its sample. A request is an event, `effects/sampler/sampler_node.rs:118-121`.
Events go through a channel of their own and not with the commands; those sent during a process call are not
modelled. The channel has room. -/
noncomputable def Sampler.ops {S : Type} [Zero S] [Add S] [Mul S] [One S] : NodeOps S (Sampler S) SamplerEvent where
  run s b := do
    let r ← unbounded fun fuel => s.processAudio fuel
      ⟨s.buffer.channels, b.frames, fun c f => (b.output c f).getD 0⟩ b.time
    return (r.2.val, r.1)
  change s e := .ok (s.send e)

/-- A sampler node, `effects/sampler/sampler_node.rs:15-45`: no inputs, the channels of the sample as outputs, the
sample rate of the sample. -/
def Sampler.node {S : Type} (id : Id) (sampleRate : Nat) (sample : Grid S) (fade : Fade S) : Dsp (Sampler S) :=
  ⟨id, 0, sample.channels, Sampler.new sampleRate sample fade⟩

end Rawdio
