import Mathlib.Analysis.SpecialFunctions.Exp
import Verif.Model.Events
import Verif.Model.Grid
import Verif.Model.Level

/-!
# `effects/adsr`: the ADSR node

Over exact reals; durations are real numbers of seconds.  The envelope's values are kept as they are
(`f64`), their conversion to `f32` at `effects/adsr/adsr_processor.rs:75` is left out.
-/

namespace Rawdio

/-- `Phase`, `effects/adsr/adsr_envelope.rs:5-11`. -/
inductive AdsrPhase
  | idle
  | attack
  | decay
  | sustain
  | release
  deriving DecidableEq

/-- `AdsrEnvelope`, `effects/adsr/adsr_envelope.rs:13-24`. -/
structure AdsrEnvelope where
  sampleRate : Nat
  phase : AdsrPhase
  envelope : ℝ
  attackCoefficient : ℝ
  decayCoefficient : ℝ
  sustainLevel : Level
  releaseCoefficient : ℝ
  decayTime : ℝ
  releaseTime : ℝ

namespace AdsrEnvelope

/-- `ATTACK_TARGET`, `effects/adsr/adsr_envelope.rs:26`. -/
noncomputable def attackTarget : ℝ := 11 / 10

/-- `DECAY_TARGET`, `effects/adsr/adsr_envelope.rs:27`. -/
noncomputable def decayTarget : ℝ := -1 / 10

/-- `RELEASE_TARGET`, `effects/adsr/adsr_envelope.rs:28`. -/
noncomputable def releaseTarget : ℝ := -1 / 10

/-- `process_exponential`, `effects/adsr/adsr_envelope.rs:133-135`. -/
noncomputable def processExponential (previous target coefficient : ℝ) : ℝ :=
  target + coefficient * (previous - target)

open Classical in
/-- `calculate_coefficient`, `effects/adsr/adsr_envelope.rs:137-143`. -/
noncomputable def coefficient (logTerm time : ℝ) (sampleRate : Nat) : ℝ :=
  if time ≤ 0 then 0 else Real.exp (Real.log logTerm / (time * sampleRate))

/-- `calculate_attack_coefficient`, `effects/adsr/adsr_envelope.rs:145-151`. -/
noncomputable def attackCoefficientFor (time : ℝ) (sampleRate : Nat) : ℝ :=
  coefficient ((attackTarget - 1) / attackTarget) time sampleRate

/-- `calculate_decay_coefficient`, `effects/adsr/adsr_envelope.rs:153-163`. -/
noncomputable def decayCoefficientFor (time : ℝ) (sustain : Level) (sampleRate : Nat) : ℝ :=
  coefficient ((sustain.linear - decayTarget) / (1 - decayTarget)) time sampleRate

/-- `calculate_release_coefficient`, `effects/adsr/adsr_envelope.rs:165-175`. -/
noncomputable def releaseCoefficientFor (time : ℝ) (sustain : Level) (sampleRate : Nat) : ℝ :=
  coefficient ((-releaseTarget) / (sustain.linear - releaseTarget)) time sampleRate

/-- `new`, `effects/adsr/adsr_envelope.rs:31-53`. -/
noncomputable def new (sampleRate : Nat) (attack decay : ℝ) (sustain : Level) (release : ℝ) :
    AdsrEnvelope where
  sampleRate := sampleRate
  phase := .idle
  envelope := 0
  attackCoefficient := attackCoefficientFor attack sampleRate
  decayCoefficient := decayCoefficientFor decay sustain sampleRate
  sustainLevel := sustain
  releaseCoefficient := releaseCoefficientFor release sustain sampleRate
  decayTime := decay
  releaseTime := release

/-- `open`, `effects/adsr/adsr_envelope.rs:55-57`. -/
def opened (e : AdsrEnvelope) : AdsrEnvelope := { e with phase := .attack }

/-- `close`, `effects/adsr/adsr_envelope.rs:59-64`. -/
def closed (e : AdsrEnvelope) : AdsrEnvelope :=
  { e with phase := match e.phase with
    | .idle => .idle
    | _ => .release }

/-- `set_attack_time`, `effects/adsr/adsr_envelope.rs:66-68`. -/
noncomputable def setAttack (e : AdsrEnvelope) (time : ℝ) : AdsrEnvelope :=
  { e with attackCoefficient := attackCoefficientFor time e.sampleRate }

/-- `set_decay_time`, `effects/adsr/adsr_envelope.rs:70-74`. -/
noncomputable def setDecay (e : AdsrEnvelope) (time : ℝ) : AdsrEnvelope :=
  { e with decayCoefficient := decayCoefficientFor time e.sustainLevel e.sampleRate, decayTime := time }

/-- `set_sustain_level`, `effects/adsr/adsr_envelope.rs:76-82`. -/
noncomputable def setSustain (e : AdsrEnvelope) (level : Level) : AdsrEnvelope :=
  { e with
    decayCoefficient := decayCoefficientFor e.decayTime level e.sampleRate
    releaseCoefficient := releaseCoefficientFor e.releaseTime level e.sampleRate
    sustainLevel := level }

/-- `set_release_time`, `effects/adsr/adsr_envelope.rs:84-88`. -/
noncomputable def setRelease (e : AdsrEnvelope) (time : ℝ) : AdsrEnvelope :=
  { e with
    releaseCoefficient := releaseCoefficientFor time e.sustainLevel e.sampleRate
    releaseTime := time }

open Classical in
/-- `process`, `effects/adsr/adsr_envelope.rs:90-130`; the value returned is the new `envelope`. -/
noncomputable def process (e : AdsrEnvelope) : AdsrEnvelope :=
  match e.phase with
  | .idle => { e with envelope := 0 }
  | .attack =>
    let output := min (processExponential e.envelope attackTarget e.attackCoefficient) 1
    { e with envelope := output, phase := if 1 ≤ output then .decay else .attack }
  | .decay =>
    let output := max (processExponential e.envelope decayTarget e.decayCoefficient) e.sustainLevel.linear
    { e with envelope := output, phase := if output ≤ e.sustainLevel.linear then .sustain else .decay }
  | .sustain => { e with envelope := e.sustainLevel.linear }
  | .release =>
    let output := max (processExponential e.envelope releaseTarget e.releaseCoefficient) 0
    { e with envelope := output, phase := if output ≤ 0 then .idle else .release }

end AdsrEnvelope

/-- `AdsrEventType`, `effects/adsr/adsr_event.rs:9-17`. -/
inductive AdsrEventType
  | noteOff
  | noteOn
  | setAttack (time : ℝ)
  | setDecay (time : ℝ)
  | setSustain (level : Level)
  | setRelease (time : ℝ)

/-- `AdsrEvent`, `effects/adsr/adsr_event.rs:25-29`. -/
structure AdsrEvent where
  sequenceNumber : Nat
  time : Int
  eventType : AdsrEventType

/-- `effects/adsr/adsr_event.rs:45-57`. -/
instance : TimedEvent AdsrEvent where
  time := AdsrEvent.time
  clearsQueue := fun _ => false
  sequenceNumber := AdsrEvent.sequenceNumber

/-- `process_event`, `effects/adsr/adsr_processor.rs:45-58`. -/
noncomputable def AdsrEnvelope.apply (e : AdsrEnvelope) : AdsrEventType → AdsrEnvelope
  | .noteOn => e.opened
  | .noteOff => e.closed
  | .setAttack t => e.setAttack t
  | .setDecay t => e.setDecay t
  | .setSustain l => e.setSustain l
  | .setRelease t => e.setRelease t

/-- `AdsrProcessor`, `effects/adsr/adsr_processor.rs:14-18`; `values` are the `capacity` values of
`envelope_buffer` and have no meaning beyond. -/
structure AdsrProcessor where
  events : EventProcessor AdsrEvent
  envelope : AdsrEnvelope
  capacity : Nat
  values : Nat → ℝ

namespace AdsrProcessor

/-- `new`, `effects/adsr/adsr_processor.rs:23-43`. -/
noncomputable def new (sampleRate maximumFrameCount : Nat) : AdsrProcessor where
  events := EventProcessor.withCapacity sampleRate
  envelope := AdsrEnvelope.new sampleRate 0 0 (Level.fromDb 0) 0
  capacity := maximumFrameCount
  values := fun _ => 0

/-- One value of the envelope, `effects/adsr/adsr_processor.rs:74-75`. -/
noncomputable def renderFrame (p : AdsrProcessor) (frame : Nat) : Res AdsrProcessor :=
  if frame < p.capacity then
    .ok { p with
      envelope := p.envelope.process
      values := fun f => if f = frame then p.envelope.process.envelope else p.values f }
  else .error .panic

/-- The values up to the next event, `effects/adsr/adsr_processor.rs:73-76`. -/
noncomputable def render (p : AdsrProcessor) (position frameCount : Nat) : Res AdsrProcessor :=
  (List.range frameCount).foldlM (fun p frame => p.renderFrame (frame + position)) p

/-- `process_event`, `effects/adsr/adsr_processor.rs:45-58`. -/
noncomputable def processEvent (p : AdsrProcessor) (e : AdsrEvent) (_current : Int) : Res AdsrProcessor :=
  .ok { p with envelope := p.envelope.apply e.eventType }

/-- `prepare_envelope`, `effects/adsr/adsr_processor.rs:60-86`. -/
noncomputable def prepareEnvelope (p : AdsrProcessor) (frameCount : Nat) (startTime : Int) :
    Res AdsrProcessor := do
  let events := p.events.receiveEvents
  let (p, pending) ← EventProcessor.loop render processEvent p.events.sampleRate startTime frameCount
    events.pending 0 startTime { p with events := events }
  .ok { p with events := { events with pending := pending } }

/-- `process_audio`, `effects/adsr/adsr_processor.rs:90-120`. -/
noncomputable def processAudio (p : AdsrProcessor) (input output : Grid ℝ) (startTime : Int) :
    Res (AdsrProcessor × Grid ℝ) := do
  let p ← p.prepareEnvelope (min input.frames output.frames) startTime
  .ok (p, { output with
    val := fun c f =>
      if c < min input.channels output.channels ∧ f < min (min output.frames input.frames) p.capacity then
        input.val c f * p.values f
      else output.val c f })

end AdsrProcessor

/-- `EVENT_CHANNEL_CAPACITY`, `effects/adsr/adsr_node.rs:15`. -/
def adsrEventCapacity : Nat := 32

/-- `send` on the bounded channel, `effects/adsr/adsr_node.rs:44-96`. -/
def AdsrProcessor.send (p : AdsrProcessor) (e : AdsrEvent) : Res AdsrProcessor :=
  if p.events.channel.length < adsrEventCapacity then
    .ok { p with events := { p.events with channel := p.events.channel ++ [e] } }
  else .error .block

end Rawdio
