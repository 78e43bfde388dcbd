import Verif.Model.AdsrExample
import Verif.Model.Connect

/-!
# The examples that connect nodes in a row

`examples/src/bin/pan.rs`, `waveshaper.rs`, `compressor.rs`: nodes are made and get requests, some get more requests later,
`connect_nodes!` connects them, and the engine is started. The values are within the ranges of the parameters, so clamping
is left out.
-/

namespace Rawdio
namespace RowExamples

open AdsrExample (create handle)

/-- A node that a program makes, and what it asks of it before it makes the next, for instance
`examples/src/bin/pan.rs:26-49`. -/
structure Part where
  id : Id
  kind : NodeKind
  requests : List MixedRequest

/-- The calls of a program, for instance `examples/src/bin/compressor.rs:27-49`: `later` are requests to nodes, by number,
after all nodes have been made; with `toOutput` the arrows of `connect_nodes!` end at the output. -/
noncomputable def program (sampleRate maximumFrameCount : Nat) (parts : List Part) (later : List (Nat × MixedRequest))
    (toOutput : Bool) : Res (List (ApiCall MixedNode MixedRequest)) := do
  let nodes ← parts.mapM fun p => p.kind.make sampleRate maximumFrameCount p.id
  let stages := nodes.map (fun d => Stage.node (handle d)) ++ if toOutput then [.output] else []
  return (nodes.zip parts).flatMap (fun d => create d.1 :: d.2.requests.map fun r => .change (handle d.1) r) ++
    later.filterMap (fun x => nodes[x.1]?.map fun d => .change (handle d) x.2) ++ (connectNodes stages).getD [] ++ [.start]

/-- The calls of a program that goes on making requests to its nodes, for instance `examples/src/bin/metronome.rs:58-88`:
`during i` are those, by number of the node, between its process calls, the first of them after it has started the engine. -/
noncomputable def session (sampleRate maximumFrameCount : Nat) (parts : List Part) (later : List (Nat × MixedRequest))
    (toOutput : Bool) (during : Nat → List (Nat × MixedRequest)) : Res (Nat → List (ApiCall MixedNode MixedRequest)) := do
  let nodes ← parts.mapM fun p => p.kind.make sampleRate maximumFrameCount p.id
  let calls ← program sampleRate maximumFrameCount parts later toOutput
  return fun i => (if i = 0 then calls else []) ++
    (during i).filterMap fun x => nodes[x.1]?.map fun d => .change (handle d) x.2

/-- `set_value_at_time` and `set_value_now`, `parameter/audio_parameter.rs:57-74`. -/
def set (name : String) (value : ℝ) (time : Int) : MixedRequest := .parameter (.change name ⟨value, time, .immediate⟩)

/-- `linear_ramp_to_value`, `parameter/audio_parameter.rs:77-91`. -/
def ramp (name : String) (value : ℝ) (start finish : Int) : MixedRequest :=
  .parameter (.change name ⟨value, finish, .linear start⟩)

/-- `examples/src/bin/compressor.rs:27-39`: the file is `sample`. -/
noncomputable def compressorParts (sample : Grid ℝ) (fade : Fade ℝ) (samplerId compressorId : Id) : List Part :=
  [⟨samplerId, .sampler sample fade, []⟩,
    ⟨compressorId, .effect (.compressor 2), [set "threshold" (-18) Timestamp.zero, set "attack" 1 Timestamp.zero,
      set "release" 10 Timestamp.zero, set "wet" (3 / 4) Timestamp.zero, set "dry" (1 / 4) Timestamp.zero,
      set "knee" 6 Timestamp.zero, set "ratio" 4 Timestamp.zero]⟩]

/-- `examples/src/bin/compressor.rs:41-45`; the events of the sampler are numbered from `n` on. -/
def compressorLater (sampleRate : Nat) (sample : Grid ℝ) (n : Nat) : List (Nat × MixedRequest) :=
  [(0, .sampler (.startNow n)),
    (0, .sampler (.enableLoop (n + 1) Timestamp.zero (Timestamp.fromSamples sample.frames sampleRate)))]

/-- The program of `examples/src/bin/compressor.rs:17-49`. -/
noncomputable def compressorProgram (sampleRate maximumFrameCount : Nat) (sample : Grid ℝ) (fade : Fade ℝ)
    (samplerId compressorId : Id) (n : Nat) : Res (List (ApiCall MixedNode MixedRequest)) :=
  program sampleRate maximumFrameCount (compressorParts sample fade samplerId compressorId)
    (compressorLater sampleRate sample n) false

/-- `examples/src/bin/pan.rs:26-49`, for any frequency and level. -/
noncomputable def panParts (frequency level : ℝ) (oscillatorId panId : Id) : List Part :=
  [⟨oscillatorId, .effect (.oscillator frequency 2 (Oscillator.makeSine Oscillator.tableSize 1)),
      [set "gain" level Timestamp.zero]⟩,
    ⟨panId, .effect (.pan 2), [set "pan" (-1) Timestamp.zero, ramp "pan" 1 Timestamp.zero (Timestamp.fromSeconds 4)]⟩]

/-- The program of `examples/src/bin/pan.rs:12-17`. -/
noncomputable def panProgram (sampleRate maximumFrameCount : Nat) (frequency level : ℝ) (oscillatorId panId : Id) :
    Res (List (ApiCall MixedNode MixedRequest)) :=
  program sampleRate maximumFrameCount (panParts frequency level oscillatorId panId) [] true

/-- `examples/src/bin/waveshaper.rs:22-49`, for any frequency, levels of harmonics, curve and mix. -/
noncomputable def waveshaperParts (frequency : ℝ) (harmonics : List Level) (curve : ℝ → ℝ) (mix : ℝ)
    (oscillatorId shaperId : Id) : List Part :=
  [⟨oscillatorId, .effect (.oscillator frequency 2 (Oscillator.addHarmonics 0 harmonics (List.replicate Oscillator.tableSize 0))), []⟩,
    ⟨shaperId, .effect (.waveshaper 2 curve), [set "mix" mix Timestamp.zero, set "overdrive" 0 Timestamp.zero,
      ramp "overdrive" 1 Timestamp.zero (Timestamp.fromSeconds 5),
      ramp "overdrive" 0 (Timestamp.fromSeconds 5) (Timestamp.fromSeconds 10)]⟩]

/-- The program of `examples/src/bin/waveshaper.rs:22-53`. -/
noncomputable def waveshaperProgram (sampleRate maximumFrameCount : Nat) (frequency : ℝ) (harmonics : List Level)
    (curve : ℝ → ℝ) (mix : ℝ) (oscillatorId shaperId : Id) : Res (List (ApiCall MixedNode MixedRequest)) :=
  program sampleRate maximumFrameCount (waveshaperParts frequency harmonics curve mix oscillatorId shaperId) [] true

end RowExamples
end Rawdio
