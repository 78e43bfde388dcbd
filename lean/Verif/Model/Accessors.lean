import Mathlib.Data.EReal.Basic
import Verif.Model.HMap
import Verif.Model.Level

/-!
# Parameter tables of the effects

`utility/create_parameters.rs`, `parameter/parameters.rs`, `graph/dsp_parameters.rs`, `graph/dsp_node.rs` and the
tables in the constructors of the effects.  A parameter is reduced to its node, its name and its range; the command
queue and the sample values are modelled in `Model/Parameter.lean` and `Model/Processor.lean`.
-/

namespace Rawdio

/-- `AudioParameter`, `parameter/audio_parameter.rs:12-18`, without the queue and the shared value. -/
structure ParameterHandle where
  dspId : Id
  parameterId : String
  range : ParameterRange EReal

/-- `RealtimeAudioParameter`, `parameter/realtime_parameter.rs`, its name and its initial value only
(`parameter/audio_parameter.rs:28-30`). -/
structure RealtimeHandle where
  parameterId : String
  initial : EReal

/-- `(&'static str, ParameterRange)`, `utility/create_parameters.rs:3`, before `ParameterRange::new` is called. -/
structure ParameterOption where
  name : String
  range : ParameterRange EReal

namespace ParameterOption

open Classical in
/-- `ParameterRange::new`, `parameter/parameter_range.rs:8-18`: the assertion fails when the range is not valid. -/
noncomputable def check (o : ParameterOption) : Res ParameterOption :=
  if o.range.Valid then .ok o else .error .panic

end ParameterOption

/-- `Parameters`, `parameter/parameters.rs:7-9`. -/
abbrev Parameters := HMap String ParameterHandle

/-- `DspParameters`, `graph/dsp_parameters.rs:4-6`. -/
abbrev DspParameters := HMap String RealtimeHandle

/-- One step of the fold, `utility/create_parameters.rs:15-24`, with `AudioParameter::new`,
`parameter/audio_parameter.rs:22-42`, and both `with_parameter` (`parameter/parameters.rs:18-25`,
`graph/dsp_parameters.rs:21-24`). -/
def addParameter (dspId : Id) (t : Parameters × DspParameters) (o : ParameterOption) : Parameters × DspParameters :=
  (t.1.insert o.name ⟨dspId, o.name, o.range⟩, t.2.insert o.name ⟨o.name, o.range.default⟩)

/-- `create_parameters`, `utility/create_parameters.rs:5-25`.  The ranges are made by the caller, before the call. -/
noncomputable def createParameters (dspId : Id) (options : List ParameterOption) : Res (Parameters × DspParameters) := do
  let options ← options.mapM ParameterOption.check
  return options.foldl (addParameter dspId) ([], [])

/-- `DspNode::get_parameter` and `get_parameter_mut`, `graph/dsp_node.rs:14-27`: panics when the name is missing. -/
def getParameter (p : Parameters) (name : String) : Res ParameterHandle :=
  match p.get? name with
  | some h => .ok h
  | none => .error .panic

/-- `DspParameters::get_parameter` and `get_parameter_mut`, `graph/dsp_parameters.rs:32-42`. -/
def getRealtimeParameter (p : DspParameters) (name : String) : Res RealtimeHandle :=
  match p.get? name with
  | some h => .ok h
  | none => .error .panic

/-- The effects that have parameters; an oscillator is made with a frequency (`effects/mod.rs`,
`effects/oscillator/oscillator_node.rs:97-102`). -/
inductive Effect where
  | gain
  | pan
  | biquad
  | compressor
  | waveshaper
  | convolution
  | oscillator (frequency : ℝ)

namespace Effect

/-- `f64::MAX`, used at `effects/compressor/compressor_parameters.rs:7`. -/
noncomputable def f64Max : ℝ := (2 - 1 / 2 ^ 52) * 2 ^ 1023

/-- A range of real numbers (`parameter/parameter_range.rs:8`). -/
noncomputable def real (default minimum maximum : ℝ) : ParameterRange EReal := ⟨default, minimum, maximum⟩

/-- The range of the gains without bounds, `effects/gain/gain_node.rs:21-23` and
`effects/oscillator/oscillator_node.rs:26-30`. -/
noncomputable def unbounded : ParameterRange EReal := ⟨(1 : ℝ), ⊥, ⊤⟩

/-- `get_range`, `effects/compressor/compressor_parameters.rs:3-22`. -/
noncomputable def compressorRange (name : String) : Res (ParameterRange EReal) :=
  match name with
  | "attack" => .ok (real 1 0 1000)
  | "release" => .ok (real 10 0 10000)
  | "ratio" => .ok (real 3 1 f64Max)
  | "threshold" => .ok (real 0 (-128) 24)
  | "knee" => .ok (real 0 0 24)
  | "wet" => .ok (real Level.unity.linear Level.zero.linear (Level.fromDb 12).linear)
  | "dry" => .ok (real Level.zero.linear Level.zero.linear (Level.fromDb 12).linear)
  | _ => .error .panic

/-- The tables in the constructors: `effects/gain/gain_node.rs:43-46`, `effects/pan/pan_node.rs:42`,
`effects/biquad/biquad_node.rs:38-57`, `effects/compressor/compressor_node.rs:39-50`,
`effects/waveshaper/waveshaper_node.rs:85-102` with `effects/waveshaper/parameters.rs:1-9`,
`effects/convolution/convolution_node.rs:37-40`, `effects/oscillator/oscillator_node.rs:111-120`. -/
noncomputable def options : Effect → Res (List ParameterOption)
  | gain => .ok [⟨"gain", unbounded⟩]
  | pan => .ok [⟨"pan", real 0 (-1) 1⟩]
  | biquad => .ok [⟨"frequency", real 1000 20 20000⟩, ⟨"q", real (1 / √2) (1 / 10) 10⟩,
      ⟨"shelf-gain", real Level.unity.linear 0 (Level.fromDb 100).linear⟩,
      ⟨"gain", real Level.unity.linear 0 (Level.fromDb 100).linear⟩]
  | compressor => ["attack", "release", "ratio", "threshold", "knee", "wet", "dry"].mapM
      (fun id => do return ⟨id, ← compressorRange id⟩)
  | waveshaper => .ok [⟨"overdrive", real 0 0 1⟩, ⟨"mix", real 1 0 1⟩]
  | convolution => .ok [⟨"wet", real 1 0 1⟩, ⟨"dry", real 0 0 1⟩]
  | oscillator f => .ok [⟨"frequency", real f 20 20000⟩, ⟨"gain", unbounded⟩]

/-- The parameters made by the constructor of an effect, as at `effects/gain/gain_node.rs:35-49`; the lines of the
other effects are those of `options`. -/
noncomputable def create (e : Effect) (dspId : Id) : Res (Parameters × DspParameters) := do
  createParameters dspId (← e.options)

/-- The accessors of each effect and the name each of them looks up: `effects/gain/gain_node.rs:65-67`,
`effects/pan/pan_node.rs:63-65`, `effects/biquad/biquad_node.rs:80-97`, `effects/compressor/compressor_node.rs:72-98`,
`effects/waveshaper/waveshaper_node.rs:125-132`, `effects/convolution/convolution_node.rs:62-69`,
`effects/oscillator/oscillator_node.rs:141-148`. -/
def accessors : Effect → List (String × String)
  | gain => [("gain", "gain")]
  | pan => [("pan", "pan")]
  | biquad => [("frequency", "frequency"), ("q", "q"), ("shelf_gain", "shelf_gain"), ("gain", "gain")]
  | compressor => [("attack", "attack"), ("release", "release"), ("ratio", "ratio"), ("threshold", "threshold"),
      ("knee", "knee"), ("wet", "wet"), ("dry", "dry")]
  | waveshaper => [("overdrive", "overdrive"), ("mix", "mix")]
  | convolution => [("wet", "wet"), ("dry", "dry")]
  | oscillator _ => [("frequency", "frequency"), ("gain", "gain")]

/-- An accessor: the parameter under the name it looks up, as at `effects/gain/gain_node.rs:65-67`; the lines of the
other effects are those of `accessors`.  A method that does not exist
does not compile and is given as a panic. -/
def access (e : Effect) (p : Parameters) (method : String) : Res ParameterHandle :=
  match HMap.get? e.accessors method with
  | some name => getParameter p name
  | none => .error .panic

/-- The names whose values the processors read in each block: `effects/gain/gain_processor.rs:15`,
`effects/pan/pan_processor.rs:18`, `effects/biquad/biquad_processor.rs:73-82`,
`effects/compressor/compressor_processor.rs:46-56`, `:96-118`, `:162-166`,
`effects/waveshaper/waveshaper_processor.rs:94-97`, `effects/convolution/convolution_processor.rs:199-203`,
`effects/oscillator/oscillator_processor.rs:53-56`. -/
def reads : Effect → List String
  | gain => ["gain"]
  | pan => ["pan"]
  | biquad => ["frequency", "q", "shelf-gain", "gain"]
  | compressor => ["attack", "release", "knee", "threshold", "ratio", "wet", "dry"]
  | waveshaper => ["overdrive", "mix"]
  | convolution => ["wet", "dry"]
  | oscillator _ => ["frequency", "gain"]

end Effect
end Rawdio
