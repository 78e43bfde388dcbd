import Verif.Model.Files
import Verif.Model.RowExamples

/-!
# The examples that play files

`examples/src/bin/file_playback.rs`, `biquad.rs`, `convolution.rs`. The file is any `sample`, and the engine has its sample
rate. The values are within the ranges of the parameters, so clamping is left out. Requests that the examples make after
`connect_nodes!` are made before it here; nothing is played before the engine is started, which is later than both.
-/

namespace Rawdio
namespace RowExamples

/-- `exponential_ramp_to_value`, `parameter/audio_parameter.rs:95-113`. -/
def exponentialRamp (name : String) (value : ℝ) (start finish : Int) : MixedRequest :=
  .parameter (.change name ⟨value, finish, .exponential start⟩)

/-- `start_now` and `enable_loop` over the whole file, `examples/src/bin/file_playback.rs:33-37`; the events of the sampler
are numbered from `n` on. -/
def playLoop (sampleRate : Nat) (sample : Grid ℝ) (n : Nat) : List (Nat × MixedRequest) :=
  [(0, .sampler (.startNow n)),
    (0, .sampler (.enableLoop (n + 1) Timestamp.zero (Timestamp.fromSamples sample.frames sampleRate)))]

/-- `examples/src/bin/file_playback.rs:28-31`. -/
noncomputable def playbackParts (sample : Grid ℝ) (fade : Fade ℝ) (samplerId gainId : Id) : List Part :=
  [⟨samplerId, .sampler sample fade, []⟩, ⟨gainId, .effect (.gain 2), []⟩]

/-- The program of `examples/src/bin/file_playback.rs:28-44`, for any level. -/
noncomputable def playbackProgram (sampleRate maximumFrameCount : Nat) (sample : Grid ℝ) (fade : Fade ℝ) (level : ℝ)
    (samplerId gainId : Id) (n : Nat) : Res (List (ApiCall MixedNode MixedRequest)) :=
  program sampleRate maximumFrameCount (playbackParts sample fade samplerId gainId)
    (playLoop sampleRate sample n ++ [(1, set "gain" level Timestamp.zero)]) true

/-- `examples/src/bin/biquad.rs:28-45`. -/
noncomputable def biquadParts (sample : Grid ℝ) (fade : Fade ℝ) (samplerId biquadId : Id) : List Part :=
  [⟨samplerId, .sampler sample fade, []⟩,
    ⟨biquadId, .effect (.biquad 2 .lowPass), [set "frequency" 20 Timestamp.zero,
      exponentialRamp "frequency" 20000 Timestamp.zero (Timestamp.fromSeconds 10),
      exponentialRamp "frequency" 20 (Timestamp.fromSeconds 10) (Timestamp.fromSeconds 20)]⟩]

/-- The program of `examples/src/bin/biquad.rs:28-55`. -/
noncomputable def biquadProgram (sampleRate maximumFrameCount : Nat) (sample : Grid ℝ) (fade : Fade ℝ)
    (samplerId biquadId : Id) (n : Nat) : Res (List (ApiCall MixedNode MixedRequest)) :=
  program sampleRate maximumFrameCount (biquadParts sample fade samplerId biquadId) (playLoop sampleRate sample n) true

/-- `examples/src/bin/convolution.rs:39-47`. -/
noncomputable def convolutionParts (sample : Grid ℝ) (fade : Fade ℝ) (impulse : Buf ℝ) (wet dry : ℝ)
    (samplerId convolutionId gainId : Id) : List Part :=
  [⟨samplerId, .sampler sample fade, []⟩,
    ⟨convolutionId, .effect (.convolution sample.channels impulse),
      [set "dry" dry Timestamp.zero, set "wet" wet Timestamp.zero]⟩,
    ⟨gainId, .effect (.gain sample.channels), [set "gain" 1 Timestamp.zero]⟩]

/-- The program of `examples/src/bin/convolution.rs:39-52`. -/
noncomputable def convolutionProgram (sampleRate maximumFrameCount : Nat) (sample : Grid ℝ) (fade : Fade ℝ)
    (impulse : Buf ℝ) (wet dry : ℝ) (samplerId convolutionId gainId : Id) (n : Nat) :
    Res (List (ApiCall MixedNode MixedRequest)) :=
  program sampleRate maximumFrameCount (convolutionParts sample fade impulse wet dry samplerId convolutionId gainId)
    [(0, .sampler (.startNow n))] true

/-- `AudioBuffer::duration` in nanoseconds, `buffer/audio_buffer.rs:71-78`: `Duration::from_secs_f64` goes to the nearest
nanosecond. The rounding of the quotient to a double is left out. -/
def duration (frames sampleRate : Nat) : Nat := ⌊(frames : ℚ) / sampleRate * 10 ^ 9 + 1 / 2⌋₊

/-- `process_file`, `examples/src/bin/convolution.rs:32-54`, for an engine with any maximum frame count and number of
channels: the file that is written, and the engine afterwards. All calls of the program are received in the first process
call; `luck` is what happens in the channel of the engine, and `env` are the environments of the blocks. -/
noncomputable def convolutionFile (N : Platform) (al : Int → Nat → Nat → Nat → Nat × Nat) (value : ℝ → F32)
    (luck : ApiCall MixedNode MixedRequest → Luck) (env : Nat → Nat → Env)
    (sampleRate maximumFrameCount maximumChannelCount : Nat) (sample : Grid ℝ) (fade : Fade ℝ) (impulse : Buf ℝ)
    (wet dry : ℝ) (samplerId convolutionId gainId : Id) (n : Nat) : Res (List Int × Processor ℝ MixedNode) := do
  let calls ← convolutionProgram sampleRate maximumFrameCount sample fade impulse wet dry samplerId convolutionId gainId n
  let length := duration sample.frames sampleRate + duration impulse.frameCount impulse.sampleRate
  Wav.render (MixedNode.ops N al) value env (fun i => if i = 0 then calls.map fun c => (c.command, luck c) else [])
    sampleRate (length / 10 ^ 9) (length % 10 ^ 9)
    (Processor.new sampleRate maximumChannelCount maximumFrameCount)

end RowExamples
end Rawdio
