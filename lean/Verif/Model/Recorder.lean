import Verif.Model.Events
import Verif.Model.Grid

/-!
# `effects/recorder`: the recorder node

Both ends of the recorder and the two bounded channels between them.  An action of the control thread and
a block of the audio thread are each regarded as done in one go; a `send` on a full channel is the fault
`block`.  The buffers of a recorder all have its sample rate, which is left out of them.  The loop of
`RecorderProcessor::process` takes `fuel`, a bound on its iterations.
-/

namespace Rawdio

/-- `effects/recorder/recorder_event.rs:7-11`. -/
inductive RecorderEventType (S : Type) where
  | returnBuffer (buffer : Grid S)
  | stop
  | start

/-- `effects/recorder/recorder_event.rs:13-17`. -/
structure RecorderEvent (S : Type) where
  sequenceNumber : Nat
  time : Int
  eventType : RecorderEventType S

/-- `effects/recorder/recorder_event.rs:61-73`. -/
instance (S : Type) : TimedEvent (RecorderEvent S) where
  time := RecorderEvent.time
  clearsQueue := fun _ => false
  sequenceNumber := RecorderEvent.sequenceNumber

/-- `effects/recorder/recorder_notification.rs:3-7`. -/
inductive RecorderNotification (S : Type) where
  | start
  | data (buffer : Grid S) (samplesUsed : Nat)
  | stop

/-- `EVENT_CHANNEL_CAPACITY`, `effects/recorder/recorder_node.rs:22`. -/
def recorderEventCapacity : Nat := 32

/-- `NOTIFICATION_CHANNEL_CAPACITY`, `effects/recorder/recorder_node.rs:23`. -/
def recorderNotificationCapacity : Nat := 32

/-- `BUFFER_COUNT`, `effects/recorder/recorder_processor.rs:18`. -/
def recorderBufferCount : Nat := 32

/-- `BUFFER_SIZE`, `effects/recorder/recorder_processor.rs:19`. -/
def recorderBufferSize : Nat := 4096

/-- `OwnedAudioBuffer::new`, `buffer/owned_audio_buffer.rs:19-26`: a buffer of zeros. -/
def Grid.zeros {S : Type} [Zero S] (frames channels : Nat) : Grid S := ⟨channels, frames, fun _ _ => 0⟩

/-- `RecorderProcessor`, `effects/recorder/recorder_processor.rs:7-15`; `notifications` is what is waiting
in the channel to the control thread, oldest first. -/
structure RecorderProcessor (S : Type) where
  sampleRate : Nat
  notifications : List (RecorderNotification S)
  events : EventProcessor (RecorderEvent S)
  pool : List (Grid S)
  current : Grid S
  position : Nat
  recording : Bool

namespace RecorderProcessor

variable {S : Type}

/-- `new`, `effects/recorder/recorder_processor.rs:22-41`; the pool is `buffer/buffer_pool.rs:8-19`. -/
def new [Zero S] (sampleRate channelCount : Nat) : RecorderProcessor S where
  sampleRate := sampleRate
  notifications := []
  events := EventProcessor.withCapacity sampleRate
  pool := List.replicate recorderBufferCount (Grid.zeros recorderBufferSize channelCount)
  current := Grid.zeros recorderBufferSize channelCount
  position := 0
  recording := false

/-- `send` on the bounded channel of notifications, as at
`effects/recorder/recorder_processor.rs:54-56,104-106,117-119`. -/
def notify (p : RecorderProcessor S) (n : RecorderNotification S) : Res (RecorderProcessor S) :=
  if p.notifications.length < recorderNotificationCapacity then
    .ok { p with notifications := p.notifications ++ [n] }
  else .error .block

/-- `next_buffer`, `effects/recorder/recorder_processor.rs:43-57`; the pool gives its last buffer,
`buffer/buffer_pool.rs:21-23`. -/
def nextBuffer (p : RecorderProcessor S) : Res (RecorderProcessor S) :=
  match p.pool.getLast? with
  | none => .error .panic
  | some next =>
    { p with pool := p.pool.dropLast, current := next, position := 0 }.notify
      (.data p.current p.position)

/-- A full buffer is sent off, `effects/recorder/recorder_processor.rs:91-93`. -/
def nextIfFull (p : RecorderProcessor S) : Res (RecorderProcessor S) :=
  if p.current.frames ≤ p.position then p.nextBuffer else .ok p

/-- The loop of `process`, `effects/recorder/recorder_processor.rs:71-94`: at most `fuel` iterations. -/
def copyLoop (input : Grid S) (startFrame frameCount channelCount : Nat) :
    Nat → Nat → RecorderProcessor S → Res (RecorderProcessor S)
  | 0, position, p => if position < startFrame + frameCount then .error .diverge else .ok p
  | fuel + 1, position, p =>
    if position < startFrame + frameCount then
      if frameCount < position ∨ p.current.frames < p.position then .error .panic
      else do
        let n := min (frameCount - position) (p.current.frames - p.position)
        let current ← p.current.copyFrom input position p.position channelCount n
        let p ← { p with current := current, position := p.position + n }.nextIfFull
        copyLoop input startFrame frameCount channelCount fuel (position + n) p
    else .ok p

/-- `process`, `effects/recorder/recorder_processor.rs:59-95`. -/
def process (fuel : Nat) (input : Grid S) (p : RecorderProcessor S) (startFrame frameCount : Nat) :
    Res (RecorderProcessor S) :=
  if p.recording then
    copyLoop input startFrame frameCount (min input.channels p.current.channels) fuel startFrame p
  else .ok p

/-- `start`, `effects/recorder/recorder_processor.rs:97-107`. -/
def start (p : RecorderProcessor S) : Res (RecorderProcessor S) :=
  if p.recording then .ok p else { p with recording := true }.notify .start

/-- `stop`, `effects/recorder/recorder_processor.rs:109-120`. -/
def stop (p : RecorderProcessor S) : Res (RecorderProcessor S) :=
  if p.recording then do
    let p ← p.nextBuffer
    { p with recording := false }.notify .stop
  else .ok p

/-- `return_buffer`, `effects/recorder/recorder_processor.rs:122-124`, `buffer/buffer_pool.rs:25-28`. -/
def returnBuffer [Zero S] (p : RecorderProcessor S) (buffer : Grid S) : RecorderProcessor S :=
  { p with pool := p.pool ++ [Grid.zeros buffer.frames buffer.channels] }

/-- `process_event`, `effects/recorder/recorder_processor.rs:126-132`. -/
def processEvent [Zero S] (p : RecorderProcessor S) (e : RecorderEvent S) (_current : Int) :
    Res (RecorderProcessor S) :=
  match e.eventType with
  | .start => p.start
  | .stop => p.stop
  | .returnBuffer b => .ok (p.returnBuffer b)

/-- `process_audio`, `effects/recorder/recorder_processor.rs:136-162`. -/
def processAudio [Zero S] (fuel : Nat) (p : RecorderProcessor S) (input : Grid S) (startTime : Int) :
    Res (RecorderProcessor S) := do
  let events := p.events.receiveEvents
  let (p, pending) ← EventProcessor.loop (process fuel input) processEvent p.sampleRate startTime
    input.frames events.pending 0 startTime { p with events := events }
  .ok { p with events := { events with pending := pending } }

end RecorderProcessor

/-- `Recorder`, `effects/recorder/recorder_node.rs:13-20`, with its processor and the counter of sequence
numbers, `effects/recorder/recorder_event.rs:22-25`. -/
structure Recorder (S : Type) where
  processor : RecorderProcessor S
  currentRecording : Option (Grid S)
  isRecording : Bool
  nextNumber : Nat

/-- What can happen to a recorder: the public functions of `effects/recorder/recorder_node.rs:79-105`,
the notifier at lines 66-73, a block on the audio thread, and other recorders drawing sequence numbers
from the same counter (`effects/recorder/recorder_event.rs:22-25`). -/
inductive RecorderAction (S : Type) where
  | recordNow
  | stopNow
  | stopAt (time : Int)
  | takeRecording
  | notifications
  | numbersDrawn (count : Nat)
  | block (input : Grid S) (startTime : Int)

namespace Recorder

variable {S : Type}

/-- `new`, `effects/recorder/recorder_node.rs:27-76`. -/
def new [Zero S] (sampleRate channelCount firstNumber : Nat) : Recorder S where
  processor := RecorderProcessor.new sampleRate channelCount
  currentRecording := none
  isRecording := false
  nextNumber := firstNumber

/-- `send` of an event on the bounded channel, `effects/recorder/recorder_node.rs:80,85,90-92,116-118`, with
its sequence number, `effects/recorder/recorder_event.rs:28-58`. -/
def send (r : Recorder S) (time : Int) (eventType : RecorderEventType S) : Res (Recorder S) :=
  if r.processor.events.channel.length < recorderEventCapacity then
    .ok { r with
      nextNumber := r.nextNumber + 1
      processor := { r.processor with
        events := { r.processor.events with
          channel := r.processor.events.channel ++ [⟨r.nextNumber, time, eventType⟩] } } }
  else .error .block

/-- `append_buffer`, `effects/recorder/recorder_node.rs:107-113`, with `from_buffer` and
`extended_with_buffer` of `buffer/owned_audio_buffer.rs:42-58,63-90`. -/
def appendBuffer [Zero S] (r : Recorder S) (buffer : Grid S) (samplesUsed : Nat) : Res (Recorder S) :=
  if buffer.frames < samplesUsed then .error .panic
  else
    match r.currentRecording with
    | some recording =>
      if buffer.channels ≠ recording.channels then .error .panic
      else do
        let longer ← (Grid.zeros (recording.frames + samplesUsed) recording.channels).copyFrom recording
          0 0 recording.channels recording.frames
        let longer ← longer.copyFrom buffer 0 recording.frames buffer.channels samplesUsed
        .ok { r with currentRecording := some longer }
    | none => do
      let recording ← (Grid.zeros samplesUsed buffer.channels).copyFrom buffer 0 0 buffer.channels
        samplesUsed
      .ok { r with currentRecording := some recording }

/-- What is done with one notification, `effects/recorder/recorder_node.rs:123-130`. -/
def receive [Zero S] (r : Recorder S) (n : RecorderNotification S) : Res (Recorder S) :=
  match n with
  | .start => .ok { r with isRecording := true }
  | .data buffer samplesUsed => do
    let r ← r.appendBuffer buffer samplesUsed
    r.send Timestamp.zero (.returnBuffer buffer)
  | .stop => .ok { r with isRecording := false }

/-- `process_notifications`, `effects/recorder/recorder_node.rs:121-132`. -/
def processNotifications [Zero S] (r : Recorder S) : Res (Recorder S) :=
  r.processor.notifications.foldlM receive
    { r with processor := { r.processor with notifications := [] } }

/-- One action; `take_recording` also gives the recording, `effects/recorder/recorder_node.rs:103-105`. -/
def step [Zero S] (fuel : Nat) (r : Recorder S) (a : RecorderAction S) :
    Res (Recorder S × Option (Grid S)) :=
  match a with
  | .recordNow => (r.send Timestamp.zero .start).map (·, none)
  | .stopNow => (r.send Timestamp.zero .stop).map (·, none)
  | .stopAt time => (r.send time .stop).map (·, none)
  | .takeRecording => .ok ({ r with currentRecording := none }, r.currentRecording)
  | .notifications => r.processNotifications.map (·, none)
  | .numbersDrawn n => .ok ({ r with nextNumber := r.nextNumber + n }, none)
  | .block input startTime =>
    (r.processor.processAudio fuel input startTime).map (fun p => ({ r with processor := p }, none))

/-- A history, with the recordings taken, in order; not a function of the code, which is called in this
way through `effects/recorder/recorder_node.rs:79-105` and `effects/recorder/recorder_processor.rs:136`. -/
def run [Zero S] (fuel : Nat) (r : Recorder S) : List (RecorderAction S) → Res (Recorder S × List (Grid S))
  | [] => .ok (r, [])
  | a :: as => do
    let (r, taken) ← r.step fuel a
    let (r, rest) ← run fuel r as
    .ok (r, taken.toList ++ rest)

end Recorder
end Rawdio
