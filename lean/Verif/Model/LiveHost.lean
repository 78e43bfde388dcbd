import Verif.Model.Float
import Verif.Model.Processor

/-!
# `examples/src/common/audio_callback.rs`: the live host

Two callbacks that run on threads of the audio devices: one is given what is captured, the other asks the engine for
what is to be played. The captured samples go through a queue. Choosing and opening devices is not modelled.
-/

namespace Rawdio

/-- What the callbacks are made for: the channels of the input device (`examples/src/common/audio_callback.rs:116`,
`:154`), the channels of the output device and the sample rate (`:168-169`), and the largest number of frames that
is expected (`:163-166`). -/
structure LiveConfig where
  inputChannels : Nat
  outputChannels : Nat
  sampleRate : Nat
  maxBufferSize : Nat

/-- The queue between the callbacks, `examples/src/common/audio_callback.rs:70-71`, and what the output callback owns,
`:171-175`. -/
structure LiveHost (S P : Type) where
  queue : List S
  engine : Processor S P
  input : Buf S
  output : Buf S

/-- The callbacks: samples are captured (`examples/src/common/audio_callback.rs:126-130`), or `data` is to be filled
(`:175-198`). The callbacks run on two threads; `arrivals i` are the samples that are captured during the output
callback, right before its sample `i` is received. -/
inductive LiveEvent (S P C : Type)
  | captured (data : List S)
  | play (data : List S) (arrivals : Nat → List S) (commands : List (Command P C × Luck)) (env : Nat → Env)

namespace LiveHost

variable {S P C : Type}

/-- `queue_capacity`, `examples/src/common/audio_callback.rs:70`. -/
def capacity : Nat := 1024 * 1024

/-- `send`, `examples/src/common/audio_callback.rs:123`, `:128`: waits if the queue is full. -/
def send (queue : List S) (sample : S) : Res (List S) :=
  if queue.length < capacity then .ok (queue ++ [sample]) else .error .block

/-- The input callback, `examples/src/common/audio_callback.rs:126-130`. -/
def capture (queue : List S) (data : List S) : Res (List S) := data.foldlM send queue

/-- `input_delay`, `examples/src/common/audio_callback.rs:118-120`: a number of samples. -/
def inputDelay (inputChannels sampleRate : Nat) : Nat :=
  inputChannels * ⌈Float64.round (Float64.round (1 / 1000) * sampleRate)⌉.toNat

/-- The callbacks before their first call, `examples/src/common/audio_callback.rs:122-124`, `:171-173`. -/
def start [Zero S] (cfg : LiveConfig) (engine : Processor S P) : Res (LiveHost S P) := do
  let queue ← capture [] (List.replicate (inputDelay cfg.inputChannels cfg.sampleRate) 0)
  return ⟨queue, engine, Buf.new cfg.maxBufferSize cfg.outputChannels cfg.sampleRate,
    Buf.new cfg.maxBufferSize cfg.outputChannels cfg.sampleRate⟩

/-- One sample is received, `examples/src/common/audio_callback.rs:180-184`, after `arrivals` have been captured;
`try_recv().expect(…)` panics if there is none. -/
def receive (arrivals : List S) (location : Loc) (s : List S × Buf S) : Res (List S × Buf S) := do
  match ← capture s.1 arrivals with
  | [] => .error .panic
  | sample :: queue =>
    let input ← s.2.setSample location sample
    return (queue, input)

/-- The loops of the output callback, `examples/src/common/audio_callback.rs:178-186`. -/
def receiveFrames (channels frames : Nat) (arrivals : Nat → List S) (s : List S × Buf S) : Res (List S × Buf S) :=
  (List.range frames).foldlM (fun s frame => (List.range channels).foldlM (fun s channel =>
    receive (arrivals (frame * channels + channel)) ⟨channel, frame⟩ s) s) s

/-- The output callback, `examples/src/common/audio_callback.rs:175-198`: the host afterwards and what is to be
played. -/
def play [Zero S] [Add S] (ops : NodeOps S P C) (cfg : LiveConfig) (data : List S) (arrivals : Nat → List S)
    (commands : List (Command P C × Luck)) (env : Nat → Env) (h : LiveHost S P) : Res (LiveHost S P × List S) := do
  if cfg.outputChannels = 0 then .error .panic else
  let frames := data.length / cfg.outputChannels
  let r ← receiveFrames cfg.inputChannels frames arrivals (h.queue, h.input)
  let input ← r.2.sliceFrames 0 frames false
  let output ← h.output.sliceFrames 0 frames true
  let output ← output.clear
  let p ← h.engine.process ops env commands input output
  let data ← p.1.copyToInterleaved data cfg.outputChannels frames
  return (⟨r.1, p.2, r.2, p.1.parent⟩, data)

/-- One callback, `examples/src/common/audio_callback.rs:126-130`, `:175-198`, and what has been played so far. -/
def step [Zero S] [Add S] (ops : NodeOps S P C) (cfg : LiveConfig) (s : LiveHost S P × List (List S)) :
    LiveEvent S P C → Res (LiveHost S P × List (List S))
  | .captured data => do
    let queue ← capture s.1.queue data
    return ({ s.1 with queue }, s.2)
  | .play data arrivals commands env => do
    let r ← play ops cfg data arrivals commands env s.1
    return (r.1, s.2 ++ [r.2])

/-- A session: the callbacks are made, then called, `examples/src/common/audio_callback.rs:61-89`. -/
def session [Zero S] [Add S] (ops : NodeOps S P C) (cfg : LiveConfig) (engine : Processor S P)
    (events : List (LiveEvent S P C)) : Res (LiveHost S P × List (List S)) := do
  let h ← start cfg engine
  events.foldlM (step ops cfg) (h, [])

end LiveHost
end Rawdio
