import Verif.Model.Timestamp
import Verif.Model.Unbounded

/-!
# The example that plays a metronome

`examples/src/bin/metronome.rs`: which beats are scheduled. Numbers of seconds are exact rationals instead of `f64`, as in
`Model/Timestamp`.
-/

namespace Rawdio
namespace Metronome

/-- A beat that is scheduled: the frequency of the oscillator is set and a note begins, both at `time`,
`examples/src/bin/metronome.rs:37-41`. -/
structure Beat where
  frequency : ℚ
  time : Int
  deriving DecidableEq

/-- The loop of `schedule_events`, `examples/src/bin/metronome.rs:25-44`, at most `fuel` times. -/
def beatsFrom (beatInterval : ℚ) (toTime : Int) : Nat → Nat → Res (List Beat)
  | 0, _ => .error .diverge
  | fuel + 1, beat =>
    let beatPosition := Timestamp.fromSeconds (beat * beatInterval)
    if toTime ≤ beatPosition then .ok []
    else do
      let frequency := if beat % 4 = 0 then 880 else 440
      let rest ← beatsFrom beatInterval toTime fuel (beat + 1)
      return ⟨frequency, beatPosition⟩ :: rest

/-- `schedule_events`, `examples/src/bin/metronome.rs:12-45`. The cast to `usize` makes a negative number 0. -/
noncomputable def scheduleEvents (beatInterval : ℚ) (fromTime toTime : Int) : Res (List Beat) :=
  unbounded fun fuel => beatsFrom beatInterval toTime fuel ⌈Timestamp.asSeconds fromTime / beatInterval⌉.toNat

/-- Two process intervals of 1 / 60 s, which `Duration` rounds to nanoseconds, `examples/src/bin/metronome.rs:67-68`. -/
def lookAhead : ℚ := 2 * (16666667 / 10 ^ 9)

/-- The main loop, `examples/src/bin/metronome.rs:66-88`: `times` is what `current_time` returns in each turn. -/
noncomputable def run (beatInterval : ℚ) : Int → List Int → Res (List Beat)
  | _, [] => .ok []
  | lastSequenceTime, now :: times => do
    let nextIntervalStart := Timestamp.incrementedBySeconds now lookAhead
    let beats ← scheduleEvents beatInterval lastSequenceTime nextIntervalStart
    let rest ← run beatInterval nextIntervalStart times
    return beats ++ rest

/-- The program for a tempo, `examples/src/bin/metronome.rs:66`, `:69`. -/
noncomputable def program (tempo : ℚ) (times : List Int) : Res (List Beat) := run (60 / tempo) Timestamp.zero times

end Metronome
end Rawdio
