import Mathlib.Analysis.SpecialFunctions.Exp
import Verif.Model.Basic

/-!
# `effects/utility/envelope_follower.rs` and `effects/utility/periodic_notification.rs`

Over exact reals and rationals: the rounding of `f32` and `f64` is left out.  A `Duration` is a number of
nanoseconds.
-/

namespace Rawdio

/-- `EnvelopeFollower`, `effects/utility/envelope_follower.rs:3-10`. -/
structure Follower where
  level : ℝ
  sampleRate : ℝ
  attackTime : Nat
  releaseTime : Nat
  attackCoefficient : ℝ
  releaseCoefficient : ℝ

namespace Follower

open Classical in
/-- `calculate_coefficient`, `effects/utility/envelope_follower.rs:12-14`; for time 0 the division gives
minus infinity, and the exponential 0. -/
noncomputable def calculateCoefficient (sampleRate : ℝ) (time : Nat) : ℝ :=
  if sampleRate * (time / 10 ^ 9) = 0 then 0 else Real.exp (-1 / (sampleRate * (time / 10 ^ 9)))

/-- `new`, `effects/utility/envelope_follower.rs:17-26`. -/
noncomputable def new (sampleRate : ℝ) (attackTime releaseTime : Nat) : Follower :=
  ⟨0, sampleRate, attackTime, releaseTime, calculateCoefficient sampleRate attackTime,
    calculateCoefficient sampleRate releaseTime⟩

/-- `set_attack_time`, `effects/utility/envelope_follower.rs:28-33`. -/
noncomputable def setAttackTime (e : Follower) (attackTime : Nat) : Follower :=
  if e.attackTime ≠ attackTime then
    { e with attackTime := attackTime, attackCoefficient := calculateCoefficient e.sampleRate attackTime }
  else e

/-- `set_release_time`, `effects/utility/envelope_follower.rs:35-40`. -/
noncomputable def setReleaseTime (e : Follower) (releaseTime : Nat) : Follower :=
  if e.releaseTime ≠ releaseTime then
    { e with releaseTime := releaseTime, releaseCoefficient := calculateCoefficient e.sampleRate releaseTime }
  else e

open Classical in
/-- `process`, `effects/utility/envelope_follower.rs:42-54`. -/
noncomputable def process (e : Follower) (sample : ℝ) : Follower × ℝ :=
  let input := |sample|
  let coefficient := if e.level < input then e.attackCoefficient else e.releaseCoefficient
  let level := e.level * coefficient + input * (1 - coefficient)
  ({ e with level := level }, level)

end Follower

/-- `PeriodicNotification`, `effects/utility/periodic_notification.rs:1-4`. -/
structure Periodic where
  notificationInterval : ℚ
  nextNotification : ℚ

namespace Periodic

/-- `new`, `effects/utility/periodic_notification.rs:7-17`. -/
def new (sampleRate : Nat) (notificationFrequency : ℚ) : Res Periodic :=
  if 0 < sampleRate ∧ 0 < notificationFrequency then
    .ok ⟨sampleRate / notificationFrequency, sampleRate / notificationFrequency⟩
  else .error .panic

/-- `samples_until_next_notification`, `effects/utility/periodic_notification.rs:19-21`; the cast to `usize`
gives 0 for negative numbers. -/
def samplesUntilNextNotification (p : Periodic) : Nat := ⌈p.nextNotification⌉.toNat

/-- The loop at `effects/utility/periodic_notification.rs:28-30`. -/
def catchUp (interval : ℚ) : Nat → ℚ → Res ℚ
  | 0, _ => .error .diverge
  | fuel + 1, next => if next ≤ 0 then catchUp interval fuel (next + interval) else .ok next

/-- `advance`, `effects/utility/periodic_notification.rs:23-33`; `fuel` bounds the rounds of the loop. -/
def advance (p : Periodic) (fuel sampleCount : Nat) : Res (Periodic × Bool) := do
  let next := p.nextNotification - sampleCount
  let shouldNotify := decide (next ≤ 0)
  let next ← catchUp p.notificationInterval fuel next
  .ok ({ p with nextNotification := next }, shouldNotify)

end Periodic
end Rawdio
