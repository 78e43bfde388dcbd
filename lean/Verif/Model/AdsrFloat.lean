import Verif.Model.Adsr
import Verif.Model.FollowerFloat

/-!
# `effects/adsr/adsr_envelope.rs` in the arithmetic of `f64`

`Model/Adsr.lean` computes with exact reals.  Here every operation is rounded to an `f64` as in the code.  The logarithm
and the exponential function, whose accuracy depends on the platform, are open.  A `Duration` is a number of
nanoseconds; infinities and NaN, and so a sample rate of 0, are not modelled.
-/

namespace Rawdio

/-- `AdsrEnvelope`, `effects/adsr/adsr_envelope.rs:13-24`. -/
structure Adsr64 where
  sampleRate : Nat
  phase : AdsrPhase
  envelope : ℚ
  attackCoefficient : ℚ
  decayCoefficient : ℚ
  sustainLevel : ℚ
  releaseCoefficient : ℚ
  decayTime : Nat
  releaseTime : Nat

namespace Adsr64

/-- `ATTACK_TARGET`, `effects/adsr/adsr_envelope.rs:26`: the `f64` nearest to 1.1. -/
def attackTarget : ℚ := Float64.round (11 / 10)

/-- `DECAY_TARGET`, `effects/adsr/adsr_envelope.rs:27`. -/
def decayTarget : ℚ := Float64.round (-1 / 10)

/-- `RELEASE_TARGET`, `effects/adsr/adsr_envelope.rs:28`. -/
def releaseTarget : ℚ := Float64.round (-1 / 10)

/-- `process_exponential`, `effects/adsr/adsr_envelope.rs:133-135`. -/
def processExponential (previous target coefficient : ℚ) : ℚ :=
  Float64.round (target + Float64.round (coefficient * Float64.round (previous - target)))

/-- `calculate_coefficient`, `effects/adsr/adsr_envelope.rs:137-143`; `as_secs_f64` is 0 for the time 0 only, and the sample
rate is taken to be less than 2^53, so that it is an `f64`. -/
def coefficient (ln exp : ℚ → ℚ) (logTerm : ℚ) (time sampleRate : Nat) : ℚ :=
  if time = 0 then 0
  else exp (Float64.round (ln logTerm / Float64.round (Follower32.secs time * sampleRate)))

/-- `calculate_attack_coefficient`, `effects/adsr/adsr_envelope.rs:145-151`. -/
def attackCoefficientFor (ln exp : ℚ → ℚ) (time sampleRate : Nat) : ℚ :=
  coefficient ln exp (Float64.round (Float64.round (attackTarget - 1) / attackTarget)) time sampleRate

/-- `calculate_decay_coefficient`, `effects/adsr/adsr_envelope.rs:153-163`. -/
def decayCoefficientFor (ln exp : ℚ → ℚ) (time : Nat) (sustain : ℚ) (sampleRate : Nat) : ℚ :=
  coefficient ln exp (Float64.round (Float64.round (sustain - decayTarget) / Float64.round (1 - decayTarget))) time sampleRate

/-- `calculate_release_coefficient`, `effects/adsr/adsr_envelope.rs:165-175`. -/
def releaseCoefficientFor (ln exp : ℚ → ℚ) (time : Nat) (sustain : ℚ) (sampleRate : Nat) : ℚ :=
  coefficient ln exp (Float64.round (-releaseTarget / Float64.round (sustain - releaseTarget))) time sampleRate

/-- `new`, `effects/adsr/adsr_envelope.rs:31-53`. -/
def new (ln exp : ℚ → ℚ) (sampleRate attack decay : Nat) (sustain : ℚ) (release : Nat) : Adsr64 where
  sampleRate := sampleRate
  phase := .idle
  envelope := 0
  attackCoefficient := attackCoefficientFor ln exp attack sampleRate
  decayCoefficient := decayCoefficientFor ln exp decay sustain sampleRate
  sustainLevel := sustain
  releaseCoefficient := releaseCoefficientFor ln exp release sustain sampleRate
  decayTime := decay
  releaseTime := release

/-- `open`, `effects/adsr/adsr_envelope.rs:55-57`. -/
def opened (e : Adsr64) : Adsr64 := { e with phase := .attack }

/-- `close`, `effects/adsr/adsr_envelope.rs:59-64`. -/
def closed (e : Adsr64) : Adsr64 :=
  { e with phase := match e.phase with
    | .idle => .idle
    | _ => .release }

/-- `set_attack_time`, `effects/adsr/adsr_envelope.rs:66-68`. -/
def setAttack (ln exp : ℚ → ℚ) (e : Adsr64) (time : Nat) : Adsr64 :=
  { e with attackCoefficient := attackCoefficientFor ln exp time e.sampleRate }

/-- `set_decay_time`, `effects/adsr/adsr_envelope.rs:70-74`. -/
def setDecay (ln exp : ℚ → ℚ) (e : Adsr64) (time : Nat) : Adsr64 :=
  { e with decayCoefficient := decayCoefficientFor ln exp time e.sustainLevel e.sampleRate, decayTime := time }

/-- `set_sustain_level`, `effects/adsr/adsr_envelope.rs:76-82`. -/
def setSustain (ln exp : ℚ → ℚ) (e : Adsr64) (level : ℚ) : Adsr64 :=
  { e with
    decayCoefficient := decayCoefficientFor ln exp e.decayTime level e.sampleRate
    releaseCoefficient := releaseCoefficientFor ln exp e.releaseTime level e.sampleRate
    sustainLevel := level }

/-- `set_release_time`, `effects/adsr/adsr_envelope.rs:84-88`. -/
def setRelease (ln exp : ℚ → ℚ) (e : Adsr64) (time : Nat) : Adsr64 :=
  { e with
    releaseCoefficient := releaseCoefficientFor ln exp time e.sustainLevel e.sampleRate
    releaseTime := time }

/-- `process`, `effects/adsr/adsr_envelope.rs:90-130`; the value returned is the new `envelope`. -/
def process (e : Adsr64) : Adsr64 :=
  match e.phase with
  | .idle => { e with envelope := 0 }
  | .attack =>
    let output := min (processExponential e.envelope attackTarget e.attackCoefficient) 1
    { e with envelope := output, phase := if 1 ≤ output then .decay else .attack }
  | .decay =>
    let output := max (processExponential e.envelope decayTarget e.decayCoefficient) e.sustainLevel
    { e with envelope := output, phase := if output ≤ e.sustainLevel then .sustain else .decay }
  | .sustain => { e with envelope := e.sustainLevel }
  | .release =>
    let output := max (processExponential e.envelope releaseTarget e.releaseCoefficient) 0
    { e with envelope := output, phase := if output ≤ 0 then .idle else .release }

end Adsr64
end Rawdio
