import Verif.Model.Biquad
import Verif.Model.Compressor
import Verif.Model.Convolution
import Verif.Model.Gain
import Verif.Model.HMap
import Verif.Model.Oscillator
import Verif.Model.Pan
import Verif.Model.Unbounded
import Verif.Model.Waveshaper

/-!
# `graph/dsp.rs`, `graph/dsp_parameters.rs`: effects with their parameters as nodes of an engine

The gain, the pan, the biquad, the oscillator, the convolution, the waveshaper and the compressor. Samples and parameter
values are real numbers. The compressor can make samples that are not numbers (`Model/Compressor`); they are 0 here, and
what is said of compressors is about signals that do not come to this.
-/

namespace Rawdio

/-- `ParameterChangeRequest` and `CancelChangeRequest`, `commands/parameter_change_request.rs:5-15`, without the id of
the node. The value of a change is within the range of its parameter (`parameter/audio_parameter.rs:63,78,101`). -/
inductive ParameterRequest
  | change (parameter : String) (change : ParameterChange ℝ)
  | cancel (parameter : String) (endTime : Option Int)

namespace ParameterRequest

/-- `parameter_id`, `commands/parameter_change_request.rs:7`, `:13`. -/
def name : ParameterRequest → String
  | change n _ => n
  | cancel n _ => n

/-- What a request does to its parameter, `graph/dsp.rs:102`, `:110-113`. -/
def apply (p : RealtimeParameter ℝ) : ParameterRequest → RealtimeParameter ℝ
  | change _ c => p.addChange c
  | cancel _ (some endTime) => p.cancelEndingAfter endTime
  | cancel _ none => p.cancelAll

end ParameterRequest

/-- The processors: `effects/gain/gain_processor.rs:3`, `effects/pan/pan_processor.rs:3`,
`effects/biquad/biquad_processor.rs:5-11`, `effects/oscillator/oscillator_processor.rs:5-8`,
`effects/convolution/convolution_processor.rs:8-17`, `effects/waveshaper/waveshaper_processor.rs:8-11`,
`effects/compressor/compressor_processor.rs:11-14`. -/
inductive Fx
  | gain
  | pan
  | biquad (processor : Biquad.Processor)
  | oscillator (processor : Oscillator)
  | convolution (processor : Convolver)
  | waveshaper (processor : Waveshaper)
  | compressor (processor : Compressor)

/-- A node, `graph/dsp.rs:9-15`, without its id. -/
structure FxNode where
  inputCount : Nat
  outputCount : Nat
  processor : Fx
  parameters : HMap String (RealtimeParameter ℝ)

/-- The same buffer with samples of another type: samples that may not be numbers (`Model/Waveshaper`) are `f32` like all
others (`buffer/audio_buffer.rs:1-9`). -/
def Buf.mapSamples {S T : Type} (g : S → T) : Buf S → Buf T
  | owned data c f r => owned (data.map g) c f r
  | slice p r m => slice (p.mapSamples g) r m

/-- What the results of the kernels could depend on: the tests for gains of 0 and 1 (`buffer/audio_buffer.rs:250-266`)
and the alignment of the slices (`dsp/mod.rs`, see `Model/Kernels`) in the block at a time. -/
structure Platform where
  isZero : ℝ → Bool
  isOne : ℝ → Bool
  gains : Int → Nat → Nat × Nat
  mixes : Int → Nat → Nat → Nat × Nat × Nat

namespace Fx

/-- A buffer of the samples that a node is given (`graph/dsp.rs:90-92`). The buffer is not a slice, so reading channels
it does not have is a panic here (see `C67_mono_input_violated` for slices). -/
def buffer (channels frames sampleRate : Nat) (samples : Nat → Nat → Option ℝ) : Buf ℝ :=
  .owned ((List.range (channels * frames)).map fun i => (samples (i / frames) (i % frames)).getD 0)
    channels frames sampleRate

/-- `get_parameter_values`, `graph/dsp_parameters.rs:32-42`; panics if there is no such parameter. -/
def values (ps : HMap String (List ℝ × RealtimeParameter ℝ)) (name : String) : Res (List ℝ) :=
  match ps.get? name with
  | some p => .ok p.1
  | none => .error .panic

/-- `process_audio` of the processors: `effects/gain/gain_processor.rs:12-31`, `effects/pan/pan_processor.rs:12-38`,
`effects/biquad/biquad_processor.rs:70-129`, `effects/oscillator/oscillator_processor.rs:48-78`,
`effects/convolution/convolution_processor.rs:195-207`, `effects/waveshaper/waveshaper_processor.rs:91-117`,
`effects/compressor/compressor_processor.rs:180-194`, with the values of the parameters that they ask for. -/
noncomputable def processAudio (N : Platform) (t : Int) (value : String → Res (List ℝ)) (input output : Buf ℝ) :
    Fx → Res (Fx × Buf ℝ)
  | gain => do
    let output ← Gain.processAudio N.isZero N.isOne (N.gains t) (← value "gain") input output
    return (gain, output)
  | pan => do
    let output ← Pan.processAudio (← value "pan") input output
    return (pan, output)
  | biquad p => do
    let frequency ← value "frequency"
    let q ← value "q"
    let shelfGain ← value "shelf-gain"
    let level ← value "gain"
    let r ← p.process N.isZero N.isOne (N.gains t) ⟨frequency, q, shelfGain, level⟩ input output
    return (biquad r.1, r.2)
  | oscillator o => do
    let frequency ← value "frequency"
    let level ← value "gain"
    let r ← unbounded fun fuel => o.processAudio N.isZero N.isOne (N.gains t) fuel frequency level output
    return (oscillator r.1, r.2)
  | convolution c => do
    let wet ← value "wet"
    let dry ← value "dry"
    let r ← c.process (N.mixes t) input output wet dry
    return (convolution r.1, r.2)
  | waveshaper w => do
    let overdrive ← value "overdrive"
    let mix ← value "mix"
    let r ← w.processAudio overdrive mix (input.mapSamples some) (output.mapSamples some)
    return (waveshaper r.1, r.2.mapSamples fun x => x.getD 0)
  | compressor k => do
    let attack ← value "attack"
    let release ← value "release"
    let knee ← value "knee"
    let threshold ← value "threshold"
    let ratio ← value "ratio"
    let wet ← value "wet"
    let dry ← value "dry"
    let r ← k.processAudio Compressor.nanoseconds N.isZero N.isOne
      ⟨fun f => attack.getD f 0, fun f => release.getD f 0, fun f => ratio.getD f 0, fun f => threshold.getD f 0,
        fun f => knee.getD f 0, fun f => wet.getD f 0, fun f => dry.getD f 0⟩
      ⟨input.channelCount, input.frameCount, fun c f => (input.view c f).getD 0⟩
    return (compressor r.1, buffer output.channelCount output.frameCount output.sampleRate r.2.val)

/-- `Dsp::process_audio`, `graph/dsp.rs:82-95`: the parameters, then the processor. -/
noncomputable def run (N : Platform) (s : FxNode) (b : NodeBlock ℝ) : Res ((Nat → Nat → ℝ) × FxNode) := do
  let parameters := s.parameters.mapVals fun p => p.process realArith b.time b.frames b.sampleRate
  let r ← s.processor.processAudio N b.time (values parameters)
    (buffer s.inputCount b.frames b.sampleRate b.input) (buffer s.outputCount b.frames b.sampleRate b.output)
  return (fun c f => (r.2.view c f).getD 0, { s with processor := r.1, parameters := parameters.mapVals Prod.snd })

/-- `request_parameter_change` and `cancel_parameter_changes`, `graph/dsp.rs:98-114`. -/
def change (s : FxNode) (r : ParameterRequest) : Res FxNode :=
  match s.parameters.get? r.name with
  | some _ => .ok { s with parameters := s.parameters.update r.name r.apply }
  | none => .error .panic

/-- The effects as nodes of an engine, `graph/dsp.rs:73-114`. -/
noncomputable def ops (N : Platform) : NodeOps ℝ FxNode ParameterRequest where
  run := run N
  change := change

end Fx

/-- What an effect is made from: the arguments of the constructors `effects/gain/gain_node.rs:37`,
`effects/pan/pan_node.rs:36`, `effects/biquad/biquad_node.rs:32`, `effects/oscillator/oscillator_node.rs:97-102`,
`effects/convolution/convolution_node.rs:29`, `effects/waveshaper/waveshaper_node.rs:80`,
`effects/compressor/compressor_node.rs:36`. The curve of a waveshaper gives numbers. -/
inductive FxKind
  | gain (channelCount : Nat)
  | pan (inputCount : Nat)
  | biquad (channelCount : Nat) (type : Biquad.FilterType)
  | oscillator (frequency : ℝ) (outputCount : Nat) (wavetable : List ℝ)
  | convolution (inputCount : Nat) (impulse : Buf ℝ)
  | waveshaper (channelCount : Nat) (curve : ℝ → ℝ)
  | compressor (channelCount : Nat)

namespace FxKind

/-- `create_parameters`, `utility/create_parameters.rs:5-25`, with `parameter/audio_parameter.rs:28-30`: the parameters
of the processor, from their default values. -/
noncomputable def parameters (defaults : List (String × ℝ)) : HMap String (RealtimeParameter ℝ) :=
  defaults.map fun d => (d.1, .new realArith d.2)

/-- The constructors, `effects/gain/gain_node.rs:37-62`, `effects/pan/pan_node.rs:36-60`,
`effects/biquad/biquad_node.rs:32-77`, `effects/oscillator/oscillator_node.rs:97-138`,
`effects/convolution/convolution_node.rs:29-59`, `effects/waveshaper/waveshaper_node.rs:80-122`,
`effects/compressor/compressor_node.rs:36-69` with `effects/compressor/compressor_parameters.rs:3-22`, given the sample rate and the maximum frame count of the context. -/
noncomputable def make (sampleRate maximumFrameCount : Nat) (id : Id) : FxKind → Res (Dsp FxNode)
  | gain n => .ok ⟨id, n, n, ⟨n, n, .gain, parameters [("gain", 1)]⟩⟩
  | pan n => .ok ⟨id, n, 2, ⟨n, 2, .pan, parameters [("pan", 0)]⟩⟩
  | biquad n type => .ok ⟨id, n, n, ⟨n, n, .biquad (Biquad.Processor.new sampleRate n type),
      parameters [("frequency", 1000), ("q", 1 / √2), ("shelf-gain", Level.unity.linear), ("gain", Level.unity.linear)]⟩⟩
  | oscillator frequency n wavetable => .ok ⟨id, 0, n, ⟨0, n, .oscillator (Oscillator.new wavetable),
      parameters [("frequency", frequency), ("gain", 1)]⟩⟩
  | convolution n impulse => do
    let processor ← Convolver.new impulse maximumFrameCount
    return ⟨id, n, impulse.channelCount, ⟨n, impulse.channelCount, .convolution processor,
      parameters [("wet", 1), ("dry", 0)]⟩⟩
  | waveshaper n curve => .ok ⟨id, n, n, ⟨n, n, .waveshaper (Waveshaper.new (fun x => some (curve x)) sampleRate
      maximumFrameCount), parameters [("overdrive", 0), ("mix", 1)]⟩⟩
  | compressor n => .ok ⟨id, n, n, ⟨n, n, .compressor (Compressor.new n sampleRate maximumFrameCount),
      parameters [("attack", 1), ("release", 10), ("ratio", 3), ("threshold", 0), ("knee", 0),
        ("wet", Level.unity.linear), ("dry", Level.zero.linear)]⟩⟩

end FxKind
end Rawdio
