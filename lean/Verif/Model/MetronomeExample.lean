import Verif.Model.Metronome
import Verif.Model.RowExamples

/-!
# The example that plays a metronome, as a program for an engine

`examples/src/bin/metronome.rs`. The frequencies 440 and 880 are mapped to real numbers by `tuning`, which is the cast in
the code; with other mappings the metronome is played higher or lower. (At 44.1 kHz an oscillator in exact arithmetic comes
to a whole number of cycles with 440 and 880 Hz, and panics, C46.)
-/

namespace Rawdio
namespace Metronome

open RowExamples (Part)

/-- `create_oscillator` and `create_adsr`, `examples/src/bin/metronome.rs:91-104`. Event `n` gets the number `sequence n`,
`effects/adsr/adsr_event.rs:19-39`. -/
noncomputable def parts (tuning : ℚ → ℝ) (oscillatorId adsrId : Id) (sequence : ℕ → ℕ) : List Part :=
  [⟨oscillatorId, .effect (.oscillator (tuning 440) 2 (Oscillator.makeSine Oscillator.tableSize 1)), []⟩,
    ⟨adsrId, .adsr 2, [.adsr ⟨sequence 0, Timestamp.zero, .setAttack (5 / 1000)⟩,
      .adsr ⟨sequence 1, Timestamp.zero, .setDecay (25 / 1000)⟩, .adsr ⟨sequence 2, Timestamp.zero, .setSustain ⟨0⟩⟩]⟩]

/-- The requests for beats, `examples/src/bin/metronome.rs:37-41`, from event `n` on. -/
def requestsFor (tuning : ℚ → ℝ) (sequence : ℕ → ℕ) : ℕ → List Beat → List (Nat × MixedRequest)
  | _, [] => []
  | n, b :: bs => (0, RowExamples.set "frequency" (tuning b.frequency) b.time) ::
      (1, .adsr ⟨sequence n, b.time, .noteOn⟩) :: requestsFor tuning sequence (n + 1) bs

/-- `last_sequence_time` after some turns of the loop, `examples/src/bin/metronome.rs:66`, `:71-73`, `:85`. -/
def lastSequenceTime (times : List Int) : Int :=
  times.foldl (fun _ now => Timestamp.incrementedBySeconds now lookAhead) Timestamp.zero

/-- The beats that are scheduled between process calls, `examples/src/bin/metronome.rs:66-88`: `turns i` is what
`current_time` returns in the turns of the loop before process call `i`. -/
noncomputable def beatsBefore (tempo : ℚ) (turns : ℕ → List Int) (i : ℕ) : Res (List Beat) :=
  run (60 / tempo) (lastSequenceTime ((List.range i).flatMap turns)) (turns i)

/-- The requests before process call `i` when `beats` are the beats that are scheduled between process calls; three events
of the envelope come before, `examples/src/bin/metronome.rs:99-101`. -/
def during (tuning : ℚ → ℝ) (sequence : ℕ → ℕ) (beats : ℕ → List Beat) (i : ℕ) : List (Nat × MixedRequest) :=
  requestsFor tuning sequence (3 + ((List.range i).flatMap beats).length) (beats i)

/-- The program of `examples/src/bin/metronome.rs:58-88`. -/
noncomputable def session (sampleRate maximumFrameCount : Nat) (tuning : ℚ → ℝ) (oscillatorId adsrId : Id)
    (sequence : ℕ → ℕ) (beats : ℕ → List Beat) : Res (Nat → List (ApiCall MixedNode MixedRequest)) :=
  RowExamples.session sampleRate maximumFrameCount (parts tuning oscillatorId adsrId sequence) [] true
    (during tuning sequence beats)

end Metronome
end Rawdio
