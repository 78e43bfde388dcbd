import Verif.Model.Files
import Verif.Spec.Chain

/-!
# Specification of WAV files
-/

namespace Rawdio

/-- The samples of a signal in the order of a file: frame after frame, and the channels of a frame one after the
other. -/
def interleaved {α : Type} (channels frames : Nat) (x : Nat → Nat → α) : List α :=
  (List.range frames).flatMap fun f => (List.range channels).map fun c => x c f

/-- A duration in seconds. -/
def inSeconds (seconds nanoseconds : Nat) : ℚ := seconds + nanoseconds / 10 ^ 9

/-- The claim about the length of a rendered file: it holds every frame that begins within the duration. -/
def RenderLength : Prop :=
  ∀ sampleRate seconds nanoseconds : Nat, seconds < 2 ^ 22 → nanoseconds < 10 ^ 9 → ∀ frame : Nat,
    (frame : ℚ) < sampleRate * inSeconds seconds nanoseconds →
    frame < Wav.totalFrames sampleRate seconds nanoseconds

/-- Process calls of `total` frames in pieces of 1024 frames, on silent input of two channels, the last piece being
what is left. -/
structure RenderCalls {S P C : Type} [Zero S] (sampleRate total : Nat) (commands : Nat → List (Command P C × Luck))
    (ks : List (Call S P C)) : Prop where
  shape : ∀ i k, ks[i]? = some k → k.commands = commands i ∧ k.output.channelCount = 2 ∧
    k.output.frameCount = min 1024 (total - i * 1024) ∧ k.output.WF ∧ k.output.Writable ∧
    k.input = Buf.new (min 1024 (total - i * 1024)) 2 sampleRate

end Rawdio
