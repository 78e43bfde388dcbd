import Verif.Model.FileExamples

/-!
# The example that sweeps an oscillator

`examples/src/bin/oscillator.rs`, up to the call of `stop`.
-/

namespace Rawdio
namespace RowExamples

/-- `examples/src/bin/oscillator.rs:27-62`, for any frequency and levels of harmonics. -/
noncomputable def chirpParts (frequency : ℝ) (harmonics : List Level) (oscillatorId gainId mixerId : Id) : List Part :=
  [⟨oscillatorId, .effect (.oscillator frequency 1 (Oscillator.addHarmonics 0 harmonics
      (List.replicate Oscillator.tableSize 0))), [set "gain" Level.unity.linear Timestamp.zero,
      exponentialRamp "frequency" (100 * frequency) Timestamp.zero (Timestamp.fromSeconds 4)]⟩,
    ⟨gainId, .effect (.gain 1), []⟩, ⟨mixerId, .splitter, []⟩]

/-- `schedule_gain_changes`, `examples/src/bin/oscillator.rs:64-75`; the node is the second one. -/
def chirpLevels : List (Nat × MixedRequest) :=
  [(1, set "gain" 0 Timestamp.zero), (1, ramp "gain" 1 Timestamp.zero (Timestamp.fromSeconds (1 / 10))),
    (1, ramp "gain" 0 (Timestamp.fromSeconds (39 / 10)) (Timestamp.fromSeconds 4))]

/-- The program of `examples/src/bin/oscillator.rs:12-22,81`. -/
noncomputable def chirpProgram (sampleRate maximumFrameCount : Nat) (frequency : ℝ) (harmonics : List Level)
    (oscillatorId gainId mixerId : Id) : Res (List (ApiCall MixedNode MixedRequest)) :=
  program sampleRate maximumFrameCount (chirpParts frequency harmonics oscillatorId gainId mixerId) chirpLevels true

end RowExamples
end Rawdio
