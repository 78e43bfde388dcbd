import Verif.Model.Timestamp

/-!
# `effects/utility/event_processor.rs`: timed events of a node

The three nodes with timed events (sampler, recorder, ADSR) cut a block at the events with the same
loop, which is modelled once, for an arbitrary state `σ` of the node, an arbitrary way `render` to
process a range of frames and an arbitrary reaction `apply` to an event.
-/

namespace Rawdio

/-- `EventProcessorEvent`, `effects/utility/event_processor.rs:3-7`. -/
class TimedEvent (E : Type) where
  time : E → Int
  clearsQueue : E → Bool
  sequenceNumber : E → Nat

open TimedEvent

/-- `effects/utility/event_processor.rs:9-16`; `channel` is what is waiting in the channel, oldest
first. -/
structure EventProcessor (E : Type) where
  pending : List E
  channel : List E
  sampleRate : Nat

namespace EventProcessor

variable {E : Type} [TimedEvent E]

/-- `effects/utility/event_processor.rs:22-32`. -/
def withCapacity (sampleRate : Nat) : EventProcessor E := ⟨[], [], sampleRate⟩

/-- One event received, `effects/utility/event_processor.rs:38-42`. -/
def push (pending : List E) (e : E) : List E := if clearsQueue e then [e] else pending ++ [e]

/-- The order of the queue, `effects/utility/event_processor.rs:48-51`. -/
def before (a b : E) : Bool :=
  decide (time a < time b) || (decide (time a = time b) && decide (sequenceNumber a ≤ sequenceNumber b))

/-- `receive_events`, `effects/utility/event_processor.rs:34-53`. Everything that is in the channel is
received; what is sent while this runs is regarded as sent before or after. -/
def receiveEvents (p : EventProcessor E) : EventProcessor E :=
  match p.channel with
  | [] => p
  | es => { p with pending := (es.foldl push p.pending).mergeSort before, channel := [] }

/-- `next_event_before`, `effects/utility/event_processor.rs:55-63`. -/
def nextEventBefore (pending : List E) (endTime : Int) : Option E × List E :=
  match pending with
  | [] => (none, [])
  | e :: rest => if time e < endTime then (some e, rest) else (none, e :: rest)

/-- The frame of an event, `effects/utility/event_processor.rs:74-78`; a conversion of a negative
number to `usize` gives 0. -/
def framePosition (frameStart current eventTime : Int) (sampleRate : Nat) : Nat :=
  ⌊Timestamp.asSamples (max eventTime current - frameStart) sampleRate⌋.toNat

/-- `next_event`, `effects/utility/event_processor.rs:65-84`. -/
def nextEvent (sampleRate : Nat) (pending : List E) (frameStart current : Int) (frameCount : Nat) :
    Nat × Option E × List E :=
  match nextEventBefore pending (Timestamp.incrementedBySamples frameStart frameCount sampleRate) with
  | (some e, rest) => (framePosition frameStart current (time e) sampleRate, some e, rest)
  | (none, rest) => (frameCount, none, rest)

theorem nextEvent_length {sampleRate : Nat} {pending : List E} {frameStart current : Int}
    {frameCount k : Nat} {e : E} {rest : List E}
    (h : nextEvent sampleRate pending frameStart current frameCount = (k, some e, rest)) :
    rest.length < pending.length := by
  unfold nextEvent nextEventBefore at h
  cases pending with
  | nil => simp at h
  | cons d ds =>
    simp only at h
    split at h
    · rename_i h'
      split at h'
      · simp at h' h; rw [← h.2.2, ← h'.2]; simp
      · simp at h'
    · simp at h

/-- The loop of `process_audio` in `effects/sampler/sampler_processor.rs:44-72`,
`effects/recorder/recorder_processor.rs:139-161` and `effects/adsr/adsr_processor.rs:63-85`: the frames
up to the next event are processed, then the event.  `end_frame - position` panics when negative.  The
sample rate is the same everywhere (in the code the node's and the buffer's). -/
def loop {σ : Type} (render : σ → Nat → Nat → Res σ) (apply : σ → E → Int → Res σ) (sampleRate : Nat)
    (frameStart : Int) (frameCount : Nat) (pending : List E) (position : Nat) (current : Int) (s : σ) :
    Res (σ × List E) :=
  if position < frameCount then
    match h : nextEvent sampleRate pending frameStart current frameCount with
    | (endFrame, some e, rest) =>
      if endFrame < position then .error .panic
      else do
        let s ← render s position (endFrame - position)
        let current := Timestamp.incrementedBySamples current (endFrame - position) sampleRate
        let s ← apply s e current
        loop render apply sampleRate frameStart frameCount rest endFrame current s
    | (endFrame, none, rest) => do
      let s ← render s position (endFrame - position)
      .ok (s, rest)
  else .ok (s, pending)
termination_by pending.length
decreasing_by exact nextEvent_length h

end EventProcessor
end Rawdio
