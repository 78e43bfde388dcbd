import Verif.Model.Adsr
import Verif.Model.Effects
import Verif.Model.Mixer
import Verif.Model.SamplerNode

/-!
# `graph/dsp.rs`: nodes of different kinds in one engine

Effects with parameters, mixers, ADSR envelopes and samplers. Levels and events go through channels of their own and
not with the commands (`effects/mixer/mixer_node.rs:58`, `effects/adsr/adsr_node.rs:45-96`,
`effects/sampler/sampler_node.rs:118-121`); those that are sent during a process call are not modelled. A sender waits
when a channel is full (C38), so nothing is sent to a full channel here.
-/

namespace Rawdio

/-- A mixer as a node, `effects/mixer/mixer_node.rs:17-24`, with both ends of it. -/
structure MixerNode where
  inputCount : Nat
  outputCount : Nat
  mixer : Mixer

/-- The arguments of `set_level`, `effects/mixer/mixer_node.rs:54`. -/
structure SetLevel where
  input : Nat
  output : Nat
  level : Level

namespace MixerNode

/-- `set_level`, `effects/mixer/mixer_node.rs:54-59`, when there is room in the channel. -/
def setLevel (s : MixerNode) (r : SetLevel) : Res MixerNode := do
  let matrix ← s.mixer.gainMatrix.setLevel r.input r.output r.level
  return { s with mixer := { s.mixer with gainMatrix := matrix, channel := s.mixer.channel ++ [matrix] } }

/-- `process_audio`, `graph/dsp.rs:82-95`, `effects/mixer/mixer_processor.rs:26-63`; `al` are the alignments in the
block at a time. -/
noncomputable def run (al : Int → Nat → Nat → Nat → Nat × Nat) (s : MixerNode) (b : NodeBlock ℝ) :
    Res ((Nat → Nat → ℝ) × MixerNode) := do
  let r ← s.mixer.processAudio (al b.time) (Fx.buffer s.inputCount b.frames b.sampleRate b.input)
    (Fx.buffer s.outputCount b.frames b.sampleRate b.output)
  return (fun c f => (r.2.view c f).getD 0, { s with mixer := r.1 })

/-- Mixers as nodes of an engine, `graph/dsp.rs:73-95`, `effects/mixer/mixer_node.rs:54-59`. -/
noncomputable def ops (al : Int → Nat → Nat → Nat → Nat × Nat) : NodeOps ℝ MixerNode SetLevel where
  run := run al
  change := setLevel

end MixerNode

/-- An ADSR envelope as a node, `effects/adsr/adsr_node.rs:9-13`, `effects/adsr/adsr_processor.rs:14-18`. -/
structure AdsrNode where
  channelCount : Nat
  processor : AdsrProcessor

namespace AdsrNode

/-- `process_audio`, `graph/dsp.rs:82-95`, `effects/adsr/adsr_processor.rs:90-120`. -/
noncomputable def run (s : AdsrNode) (b : NodeBlock ℝ) : Res ((Nat → Nat → ℝ) × AdsrNode) := do
  let r ← s.processor.processAudio ⟨s.channelCount, b.frames, fun c f => (b.input c f).getD 0⟩
    ⟨s.channelCount, b.frames, fun c f => (b.output c f).getD 0⟩ b.time
  return (r.2.val, { s with processor := r.1 })

/-- `send`, `effects/adsr/adsr_node.rs:44-96`, when there is room in the channel. -/
def send (s : AdsrNode) (e : AdsrEvent) : AdsrNode :=
  { s with processor :=
    { s.processor with events := { s.processor.events with channel := s.processor.events.channel ++ [e] } } }

/-- ADSR envelopes as nodes of an engine, `graph/dsp.rs:73-95`, `effects/adsr/adsr_node.rs:43-96`. -/
noncomputable def ops : NodeOps ℝ AdsrNode AdsrEvent where
  run := run
  change s e := .ok (s.send e)

end AdsrNode

/-- The processors of an engine behind the trait objects of `graph/dsp.rs:12`. -/
inductive MixedNode
  | effect (s : FxNode)
  | mixer (s : MixerNode)
  | adsr (s : AdsrNode)
  | sampler (s : Sampler ℝ)

/-- What can be requested of a node: a change of a parameter (`commands/parameter_change_request.rs:5-15`), a level of a
mixer (`effects/mixer/mixer_node.rs:54`), an event of an ADSR envelope (`effects/adsr/adsr_event.rs:25-29`) or of a
sampler (`effects/sampler/sampler_event.rs`). -/
inductive MixedRequest
  | parameter (r : ParameterRequest)
  | level (r : SetLevel)
  | adsr (e : AdsrEvent)
  | sampler (e : SamplerEvent)

namespace MixedNode

/-- `Dsp::process_audio`, `graph/dsp.rs:82-95`, for the processor that there is. -/
noncomputable def run (N : Platform) (al : Int → Nat → Nat → Nat → Nat × Nat) (b : NodeBlock ℝ) :
    MixedNode → Res ((Nat → Nat → ℝ) × MixedNode)
  | effect s => do let r ← (Fx.ops N).run s b; return (r.1, effect r.2)
  | mixer s => do let r ← (MixerNode.ops al).run s b; return (r.1, mixer r.2)
  | adsr s => do let r ← AdsrNode.ops.run s b; return (r.1, adsr r.2)
  | sampler s => do let r ← Sampler.ops.run s b; return (r.1, sampler r.2)

/-- A request to a node. The handles have types, so nothing is requested that the node does not have, except for
parameters (`graph/dsp.rs:98-114` panics without the parameter). -/
noncomputable def change (N : Platform) (al : Int → Nat → Nat → Nat → Nat × Nat) :
    MixedNode → MixedRequest → Res MixedNode
  | effect s, .parameter r => do return effect (← (Fx.ops N).change s r)
  | mixer s, .level r => do return mixer (← (MixerNode.ops al).change s r)
  | adsr s, .adsr e => do return adsr (← AdsrNode.ops.change s e)
  | sampler s, .sampler e => do return sampler (← Sampler.ops.change s e)
  | _, _ => .error .panic

/-- Nodes of all kinds in an engine, `graph/dsp.rs:73-114`. -/
noncomputable def ops (N : Platform) (al : Int → Nat → Nat → Nat → Nat × Nat) : NodeOps ℝ MixedNode MixedRequest where
  run s b := run N al b s
  change := change N al

end MixedNode

/-- What nodes are made from: the constructors of the effects (`Model/Effects`), `effects/mixer/mixer_node.rs:30`,
`:62`, `:78`, `effects/adsr/adsr_node.rs:19` and `effects/sampler/sampler_node.rs:15`. -/
inductive NodeKind
  | effect (k : FxKind)
  | mixer (inputCount outputCount : Nat)
  | splitter
  | unity (channelCount : Nat)
  | adsr (channelCount : Nat)
  | sampler (sample : Grid ℝ) (fade : Fade ℝ)

namespace NodeKind

/-- The constructors, `effects/mixer/mixer_node.rs:30-86`, `effects/adsr/adsr_node.rs:19-41`,
`effects/sampler/sampler_node.rs:15-45` and those of the effects, given the sample rate and the maximum frame count of
the context. An ADSR envelope is made with the sample rate of the context. -/
noncomputable def make (sampleRate maximumFrameCount : Nat) (id : Id) : NodeKind → Res (Dsp MixedNode)
  | effect k => do
    let d ← k.make sampleRate maximumFrameCount id
    return ⟨d.id, d.inputCount, d.outputCount, .effect d.state⟩
  | mixer inputs outputs => do return ⟨id, inputs, outputs, .mixer ⟨inputs, outputs, ← Mixer.new inputs outputs⟩⟩
  | splitter => do return ⟨id, 1, 2, .mixer ⟨1, 2, ← Mixer.monoToStereoSplitter⟩⟩
  | unity n => do return ⟨id, n, n, .mixer ⟨n, n, ← Mixer.unity n⟩⟩
  | adsr n => .ok ⟨id, n, n, .adsr ⟨n, AdsrProcessor.new sampleRate maximumFrameCount⟩⟩
  | sampler sample fade => .ok ⟨id, 0, sample.channels, .sampler (Sampler.new sampleRate sample fade)⟩

end NodeKind
end Rawdio
