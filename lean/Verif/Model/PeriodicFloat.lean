import Verif.Model.Float
import Verif.Model.Follower

/-!
# `effects/utility/periodic_notification.rs` in the arithmetic of `f64`

`Model/Follower.lean` computes with exact rationals.  Here every operation is rounded to an `f64` as in the code.  The
sample rate and the numbers of samples are taken to be less than 2^53, so that they are `f64` numbers; infinities and NaN
are not modelled.
-/

namespace Rawdio
namespace Periodic

/-- `new`, `effects/utility/periodic_notification.rs:7-17`. -/
def newFloat (sampleRate : Nat) (notificationFrequency : ℚ) : Res Periodic :=
  if 0 < sampleRate ∧ 0 < notificationFrequency then
    .ok ⟨Float64.round (sampleRate / notificationFrequency), Float64.round (sampleRate / notificationFrequency)⟩
  else .error .panic

/-- The loop at `effects/utility/periodic_notification.rs:28-30`. -/
def catchUpFloat (interval : ℚ) : Nat → ℚ → Res ℚ
  | 0, _ => .error .diverge
  | fuel + 1, next => if next ≤ 0 then catchUpFloat interval fuel (Float64.round (next + interval)) else .ok next

/-- `advance`, `effects/utility/periodic_notification.rs:23-33`; `fuel` bounds the rounds of the loop. -/
def advanceFloat (p : Periodic) (fuel sampleCount : Nat) : Res (Periodic × Bool) := do
  let next := Float64.round (p.nextNotification - sampleCount)
  let shouldNotify := decide (next ≤ 0)
  let next ← catchUpFloat p.notificationInterval fuel next
  .ok ({ p with nextNotification := next }, shouldNotify)

end Periodic
end Rawdio
