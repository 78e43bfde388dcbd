import Verif.Model.Files

/-!
# `effects/utility/envelope_follower.rs` in the arithmetic of `f32` and `f64`

`Model/Follower.lean` computes with exact reals.  Here every operation is rounded as in the code: the coefficients to
`f64`, the level to `f32`.  The exponential function, whose accuracy depends on the platform, is open.  Numbers of
2^128 and more, infinities (other than by the division for a time of 0) and NaN are not modelled.
-/

namespace Rawdio

/-- `EnvelopeFollower`, `effects/utility/envelope_follower.rs:3-10`; sample rates are taken to be whole numbers of less
than 2^53. -/
structure Follower32 where
  level : ℚ
  sampleRate : Nat
  attackTime : Nat
  releaseTime : Nat
  attackCoefficient : ℚ
  releaseCoefficient : ℚ

namespace Follower32

/-- `Duration::as_secs_f64` at `effects/utility/envelope_follower.rs:13`: the whole seconds and the rounded fraction are
added; a `Duration` is a number of nanoseconds. -/
def secs (time : Nat) : ℚ := Float64.round ((time / 10 ^ 9 : Nat) + Float64.round ((time % 10 ^ 9 : Nat) / 10 ^ 9))

/-- `calculate_coefficient`, `effects/utility/envelope_follower.rs:12-14`; for time 0 the division gives minus infinity,
and the exponential 0. -/
def calculateCoefficient (exp : ℚ → ℚ) (sampleRate time : Nat) : ℚ :=
  if sampleRate * time = 0 then 0 else exp (Float64.round (-1 / Float64.round (sampleRate * secs time)))

/-- `new`, `effects/utility/envelope_follower.rs:17-26`. -/
def new (exp : ℚ → ℚ) (sampleRate attackTime releaseTime : Nat) : Follower32 :=
  ⟨0, sampleRate, attackTime, releaseTime, calculateCoefficient exp sampleRate attackTime,
    calculateCoefficient exp sampleRate releaseTime⟩

/-- `set_attack_time`, `effects/utility/envelope_follower.rs:28-33`. -/
def setAttackTime (exp : ℚ → ℚ) (e : Follower32) (attackTime : Nat) : Follower32 :=
  if e.attackTime ≠ attackTime then
    { e with attackTime := attackTime, attackCoefficient := calculateCoefficient exp e.sampleRate attackTime }
  else e

/-- `set_release_time`, `effects/utility/envelope_follower.rs:35-40`. -/
def setReleaseTime (exp : ℚ → ℚ) (e : Follower32) (releaseTime : Nat) : Follower32 :=
  if e.releaseTime ≠ releaseTime then
    { e with releaseTime := releaseTime, releaseCoefficient := calculateCoefficient exp e.sampleRate releaseTime }
  else e

/-- The new level, `effects/utility/envelope_follower.rs:51`: the coefficient is converted to `f32`, and each of the two
products, the difference and the sum are rounded. -/
def mix (level coefficient input : ℚ) : ℚ :=
  Float32.round (Float32.round (level * Float32.round coefficient) +
    Float32.round (input * Float32.round (1 - Float32.round coefficient)))

/-- `process`, `effects/utility/envelope_follower.rs:42-54`. -/
def process (e : Follower32) (sample : ℚ) : Follower32 × ℚ :=
  let input := |sample|
  let coefficient := if e.level < input then e.attackCoefficient else e.releaseCoefficient
  let level := mix e.level coefficient input
  ({ e with level := level }, level)

end Follower32
end Rawdio
