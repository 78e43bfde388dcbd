import Verif.Model.Events
import Verif.Model.Voice

/-!
# `effects/sampler/sampler_event.rs` and `effects/sampler/sampler_processor.rs`

The loop of `process_sample` need not end. It is modelled with a bound `fuel` on the number of its
iterations; running out of it is the fault `diverge`. That a call never returns is that every `fuel` runs
out.  The counter of completed loops does not overflow in the model.
-/

namespace Rawdio

/-- `effects/sampler/sampler_event.rs:6-15`. -/
inductive SampleEventType where
  | start (position : Int)
  | startImmediate
  | stop
  | enableLoop (loopStart loopEnd : Int)
  | cancelLoop
  | cancelAll
  deriving DecidableEq

/-- `effects/sampler/sampler_event.rs:23-27`. -/
structure SamplerEvent where
  sequenceNumber : Nat
  time : Int
  eventType : SampleEventType

/-- `effects/sampler/sampler_event.rs:111-123`. -/
instance : TimedEvent SamplerEvent where
  time := SamplerEvent.time
  clearsQueue e := e.eventType == .cancelAll
  sequenceNumber := SamplerEvent.sequenceNumber

namespace SamplerEvent

/-- `effects/sampler/sampler_event.rs:34-40`; `n` is the sequence number. -/
def start (n : Nat) (startAtTime positionInSample : Int) : SamplerEvent :=
  ⟨n, startAtTime, .start positionInSample⟩

/-- `effects/sampler/sampler_event.rs:42-48`. -/
def startNow (n : Nat) : SamplerEvent := ⟨n, Timestamp.zero, .startImmediate⟩

/-- `effects/sampler/sampler_event.rs:50-56`. -/
def stopAt (n : Nat) (stopAtTime : Int) : SamplerEvent := ⟨n, stopAtTime, .stop⟩

/-- `effects/sampler/sampler_event.rs:58-64`. -/
def stopNow (n : Nat) : SamplerEvent := ⟨n, Timestamp.zero, .stop⟩

/-- `effects/sampler/sampler_event.rs:66-76`. -/
def enableLoopAtTime (n : Nat) (enableAtTime loopStart loopEnd : Int) : SamplerEvent :=
  ⟨n, enableAtTime, .enableLoop loopStart loopEnd⟩

/-- `effects/sampler/sampler_event.rs:78-84`. -/
def cancelLoopAtTime (n : Nat) (cancelTime : Int) : SamplerEvent := ⟨n, cancelTime, .cancelLoop⟩

/-- `effects/sampler/sampler_event.rs:86-92`. -/
def enableLoop (n : Nat) (loopStart loopEnd : Int) : SamplerEvent :=
  ⟨n, Timestamp.zero, .enableLoop loopStart loopEnd⟩

/-- `effects/sampler/sampler_event.rs:94-100`. -/
def cancelLoop (n : Nat) : SamplerEvent := ⟨n, Timestamp.zero, .cancelLoop⟩

/-- `effects/sampler/sampler_event.rs:102-108`. -/
def cancelAll (n : Nat) : SamplerEvent := ⟨n, Timestamp.zero, .cancelAll⟩

end SamplerEvent

/-- `x.round() as usize`, as at `effects/sampler/sampler_processor.rs:173,238`: to the nearest whole
number, halves away from zero; negative numbers become 0. -/
def roundUsize (x : ℚ) : Nat := ⌊x + 1 / 2⌋.toNat

/-- `SamplerDspProcess`, `effects/sampler/sampler_processor.rs:19-32`. -/
structure Sampler (S : Type) where
  fade : Fade S
  voices : List Voice
  activeVoice : Option Nat
  buffer : Grid S
  events : EventProcessor SamplerEvent
  sampleRate : Nat
  loopPoints : Option (Int × Int)
  position : Int
  startPosition : Int
  completedLoops : Nat

namespace Sampler

variable {S : Type}

/-- `new_wth_fade`, `effects/sampler/sampler_processor.rs:90-112`, with `NUM_VOICES` from line 34. -/
def new (sampleRate : Nat) (buffer : Grid S) (fade : Fade S) : Sampler S where
  fade := fade
  voices := List.replicate 2 Voice.default
  activeVoice := none
  buffer := buffer
  events := EventProcessor.withCapacity sampleRate
  sampleRate := sampleRate
  loopPoints := none
  position := Timestamp.zero
  startPosition := Timestamp.zero
  completedLoops := 0

/-- `next_loop_position`, `effects/sampler/sampler_processor.rs:123-138`. -/
def nextLoopPosition (s : Sampler S) : Int :=
  match s.loopPoints with
  | none => Timestamp.fromSamples s.buffer.frames s.sampleRate
  | some (loopStart, loopEnd) =>
    Timestamp.fromSamples (Timestamp.asSamples (loopEnd - s.startPosition) s.sampleRate +
      Timestamp.asSamples (loopEnd - loopStart) s.sampleRate * s.completedLoops) s.sampleRate

/-- `get_render_interval`, `effects/sampler/sampler_processor.rs:140-154`. -/
def getRenderInterval (s : Sampler S) (samplesRemaining : Nat) : Int :=
  let endOfFrame := Timestamp.incrementedBySamples s.position samplesRemaining s.sampleRate
  let endOfSample := s.nextLoopPosition
  (if endOfFrame < endOfSample then endOfFrame else endOfSample) - s.position

/-- `stop`, `effects/sampler/sampler_processor.rs:283-286`. -/
def stop (s : Sampler S) : Sampler S :=
  { s with voices := s.voices.map Voice.stop, activeVoice := none }

/-- `get_active_voice_position`, `effects/sampler/sampler_processor.rs:259-269`. -/
def activePosition (s : Sampler S) : Option Nat :=
  s.activeVoice.bind fun i => s.voices[i]?.map Voice.position

/-- `assign_voice` after the check of the active voice, `effects/sampler/sampler_processor.rs:246-256`. -/
def takeVoice (s : Sampler S) (samplePosition : Nat) : Sampler S :=
  let s := s.stop
  match s.voices.findIdx? Voice.isStopped with
  | some i =>
    { s with voices := s.voices.set i (Voice.startFromPosition samplePosition), activeVoice := some i }
  | none => s

/-- `assign_voice`, `effects/sampler/sampler_processor.rs:237-257`. -/
def assignVoice (s : Sampler S) (startPosition : Int) : Sampler S :=
  let samplePosition := roundUsize (Timestamp.asSamples startPosition s.sampleRate)
  if s.activePosition = some samplePosition then s else s.takeVoice samplePosition

/-- `start`, `effects/sampler/sampler_processor.rs:271-276`. -/
def start (s : Sampler S) (fromPosition delay : Int) : Sampler S :=
  { s.assignVoice (fromPosition + delay) with
    completedLoops := 0, position := delay, startPosition := fromPosition }

/-- `loop_back`, `effects/sampler/sampler_processor.rs:278-281`. -/
def loopBack (s : Sampler S) (fromPosition : Int) : Sampler S :=
  { s with completedLoops := s.completedLoops + 1 }.assignVoice fromPosition

/-- `finish_sample`, `effects/sampler/sampler_processor.rs:156-160`. -/
def finishSample (s : Sampler S) : Sampler S :=
  match s.loopPoints with
  | some (loopStart, _) => s.loopBack loopStart
  | none => s

/-- `process_event`, `effects/sampler/sampler_processor.rs:208-235`. -/
def processEvent (s : Sampler S) (e : SamplerEvent) (currentTime : Int) : Sampler S :=
  match e.eventType with
  | .startImmediate => s.start Timestamp.zero Timestamp.zero
  | .start positionInSample => s.start positionInSample (currentTime - e.time)
  | .stop => s.stop
  | .enableLoop loopStart loopEnd => { s with loopPoints := some (loopStart, loopEnd) }
  | .cancelLoop => { s with loopPoints := none }
  | .cancelAll => { s.stop with loopPoints := none }

/-- The loop over the voices in `process_voices`, `effects/sampler/sampler_processor.rs:203-205`. -/
def renderVoices [Add S] [Mul S] [One S] (source : Grid S) (fade : Fade S) (w : Window) :
    List Voice → Grid S → Res (List Voice × Grid S)
  | [], out => .ok ([], out)
  | v :: vs, out => do
    let (v, out) ← v.render out w source fade
    let (vs, out) ← renderVoices source fade w vs out
    .ok (v :: vs, out)

/-- `process_voices`, `effects/sampler/sampler_processor.rs:200-206`. -/
def processVoices [Add S] [Mul S] [One S] (s : Sampler S) (out : Grid S) (w : Window) :
    Res (Sampler S × Grid S) := do
  let (voices, out) ← renderVoices s.buffer s.fade w s.voices out
  .ok ({ s with voices := voices }, out)

/-- The number of frames rendered at once, `effects/sampler/sampler_processor.rs:172-175`. -/
def renderFrameCount (s : Sampler S) (samplesRemaining : Nat) : Nat :=
  min (roundUsize (Timestamp.asSamples (s.getRenderInterval samplesRemaining) s.sampleRate))
    samplesRemaining

/-- `process_sample`, `effects/sampler/sampler_processor.rs:166-198`: at most `fuel` iterations of the
loop, from `framePosition` on. -/
def processSample [Add S] [Mul S] [One S] (w : Window) :
    Nat → Nat → Sampler S → Grid S → Res (Sampler S × Grid S)
  | 0, framePosition, s, out =>
    if framePosition < w.count then .error .diverge else .ok (s, out)
  | fuel + 1, framePosition, s, out =>
    if framePosition < w.count then
      let n := s.renderFrameCount (w.count - framePosition)
      if n = 0 ∧ s.loopPoints.isSome then processSample w fuel framePosition s.finishSample out
      else if n = 0 then .ok (s, out)
      else do
        let (s, out) ← s.processVoices out ⟨w.offset + framePosition, n⟩
        processSample w fuel (framePosition + n)
          { s with position := Timestamp.incrementedBySamples s.position n s.sampleRate } out
    else .ok (s, out)

/-- The call of `process_sample` on a part of the block, `effects/sampler/sampler_processor.rs:58-64`. -/
def renderPart [Add S] [Mul S] [One S] (fuel : Nat) (s : Sampler S × Grid S) (position count : Nat) :
    Res (Sampler S × Grid S) :=
  if s.2.frames < position + count then .error .panic
  else processSample ⟨position, count⟩ fuel 0 s.1 s.2

/-- The reaction to an event, `effects/sampler/sampler_processor.rs:69-71`. -/
def applyEvent (s : Sampler S × Grid S) (e : SamplerEvent) (currentTime : Int) :
    Res (Sampler S × Grid S) := .ok (s.1.processEvent e currentTime, s.2)

/-- `process_audio`, `effects/sampler/sampler_processor.rs:39-73`. -/
def processAudio [Add S] [Mul S] [One S] (fuel : Nat) (s : Sampler S) (out : Grid S)
    (startTime : Int) : Res (Sampler S × Grid S) := do
  let events := s.events.receiveEvents
  let ((s, out), pending) ← EventProcessor.loop (renderPart fuel) applyEvent s.sampleRate startTime
    out.frames events.pending 0 startTime ({ s with events := events }, out)
  .ok ({ s with events := { events with pending := pending } }, out)

/-- Sending an event, `effects/sampler/sampler_node.rs:118-121`, when the channel has room. -/
def send (s : Sampler S) (e : SamplerEvent) : Sampler S :=
  { s with events := { s.events with channel := s.events.channel ++ [e] } }

end Sampler
end Rawdio
