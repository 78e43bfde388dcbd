import Verif.Model.LiveHost
import Verif.Spec.Files

/-!
# Specification of the live host
-/

namespace Rawdio

variable {S P C : Type}

namespace LiveEvent

/-- The samples that are captured while a callback runs, when the input has `inputChannels` and the output
`outputChannels` channels. -/
def captures (inputChannels outputChannels : Nat) : LiveEvent S P C → List S
  | captured data => data
  | play data arrivals _ _ => (List.range (data.length / outputChannels * inputChannels)).flatMap arrivals

/-- The frames that a callback is to play. -/
def frames (outputChannels : Nat) : LiveEvent S P C → Nat
  | captured _ => 0
  | play data _ _ _ => data.length / outputChannels

/-- Whether a callback plays. -/
def plays : LiveEvent S P C → Bool
  | captured _ => false
  | play .. => true

/-- What the engine is told before a callback. -/
def commands : LiveEvent S P C → List (Command P C × Luck)
  | captured _ => []
  | play _ _ commands _ => commands

/-- The device asks for whole frames, at most as many as it has announced. -/
def Fits (cfg : LiveConfig) : LiveEvent S P C → Prop
  | captured _ => True
  | play data _ _ _ => cfg.outputChannels ∣ data.length ∧ data.length / cfg.outputChannels ≤ cfg.maxBufferSize

end LiveEvent

/-- All that is captured in some callbacks. -/
def capturedIn (cfg : LiveConfig) (events : List (LiveEvent S P C)) : List S :=
  events.flatMap (LiveEvent.captures cfg.inputChannels cfg.outputChannels)

/-- The frames that some callbacks play. -/
def playedIn (cfg : LiveConfig) (events : List (LiveEvent S P C)) : Nat :=
  (events.map (LiveEvent.frames cfg.outputChannels)).sum

/-- The frames of a millisecond, rounded up. -/
def millisecond (sampleRate : Nat) : Nat := (sampleRate + 999) / 1000

/-- The captured signal, later by `delay` frames; silence before, and on the channels that the input does not have. -/
def delayedInput [Zero S] (delay channels : Nat) (samples : List S) (c f : Nat) : S :=
  if c < channels ∧ delay ≤ f then samples.getD ((f - delay) * channels + c) 0 else 0

/-- The process calls of the output callbacks, on the delayed input. -/
structure LiveCalls [Zero S] (cfg : LiveConfig) (events : List (LiveEvent S P C)) (ks : List (Call S P C)) : Prop where
  commands : ks.map Call.commands = (events.filter LiveEvent.plays).map LiveEvent.commands
  frames : ks.map (fun k => k.output.frameCount) =
    (events.filter LiveEvent.plays).map (LiveEvent.frames cfg.outputChannels)
  shape : ∀ k ∈ ks, k.output.channelCount = cfg.outputChannels ∧ k.output.WF ∧ k.output.Writable ∧ k.input.WF ∧
    k.input.channelCount = cfg.outputChannels ∧ k.input.frameCount = k.output.frameCount
  input : ∀ i k, ks[i]? = some k → ∀ c f, c < cfg.outputChannels → f < k.output.frameCount →
    k.input.sample? c f = some (delayedInput (millisecond cfg.sampleRate) cfg.inputChannels (capturedIn cfg events) c
      (framesIn (ks.take i) + f))

/-- Input and output keep time: the queue has enough samples when a callback wants to play, and room for what is
captured. -/
def KeepsTime (cfg : LiveConfig) (events : List (LiveEvent S P C)) : Prop :=
  ∀ before e after, events = before ++ e :: after →
    (playedIn cfg before + e.frames cfg.outputChannels) * cfg.inputChannels ≤
      millisecond cfg.sampleRate * cfg.inputChannels + (capturedIn cfg before).length ∧
    millisecond cfg.sampleRate * cfg.inputChannels + (capturedIn cfg (before ++ [e])).length ≤
      playedIn cfg before * cfg.inputChannels + 1024 * 1024

/-- The claim about the callbacks: whatever the devices, whenever the callbacks are called and whatever nodes in a row
the engine plays, none of them aborts or waits. -/
def LiveCallbacksReturn (S P C : Type) [Zero S] [Add S] : Prop :=
  ∀ (ops : NodeOps S P C) (cfg : LiveConfig) (mf mc : Nat), 0 < mf → 0 < cfg.inputChannels → 0 < cfg.outputChannels →
    cfg.inputChannels < 2 ^ 16 → cfg.outputChannels < 2 ^ 16 → 0 < cfg.sampleRate → cfg.sampleRate < 2 ^ 32 →
    (∀ s b, ∃ r, ops.run s b = .ok r) → (∀ s r, ∃ s', ops.change s r = .ok s') →
    ∀ events : List (LiveEvent S P C), (∀ e ∈ events, e.Fits cfg ∧ e.commands = []) →
    ∃ r, LiveHost.session ops cfg (Processor.new cfg.sampleRate mc mf) events = .ok r

end Rawdio
