import Verif.Model.MeterNode
import Verif.Spec.Envelope
import Verif.Spec.Network

/-!
# Specification of meters in an engine

What a meter reports in a session, from the signal that goes into it, the lengths of the process calls and the times at
which notifications are due. A block is a pair of its first frame and its number of frames.
-/

namespace Rawdio

/-- Whether a notification is due after frame count `a`, and not after `b`: notifications are due at the multiples of the
interval. -/
def DueWithin (interval : ℚ) (a b : Nat) : Prop := ∃ k : Nat, (a : ℚ) < k * interval ∧ k * interval ≤ b

/-- The blocks of a process call of `n` frames, the first of which is frame `first` of the session: full blocks, and
what remains. -/
def callBlocks (full first n : Nat) : List (Nat × Nat) :=
  (List.range (n / full)).map (fun j => (first + j * full, full)) ++
    if n % full = 0 then [] else [(first + n / full * full, n % full)]

/-- The blocks of process calls of so many frames, from frame `first` of the session on. -/
def blocksFrom (full : Nat) : Nat → List Nat → List (Nat × Nat)
  | _, [] => []
  | first, n :: ns => callBlocks full first n ++ blocksFrom full (first + n) ns

/-- The blocks of a session. -/
def sessionBlocks {S P C : Type} (full : Nat) (ks : List (Call S P C)) : List (Nat × Nat) :=
  blocksFrom full 0 (ks.map fun k => k.output.frameCount)

open Classical in
/-- The frames that a meter looks at: of each block those before a notification is due. -/
noncomputable def inspectedFrames (interval : ℚ) (blocks : List (Nat × Nat)) : List Nat :=
  blocks.flatMap fun b => (List.range' b.1 b.2).filter fun F => ¬ DueWithin interval b.1 F

open Classical in
/-- When a meter reports: at the ends of the blocks in which a notification is due. -/
noncomputable def reportTimes (interval : ℚ) (blocks : List (Nat × Nat)) : List Nat :=
  (blocks.filter fun b => DueWithin interval b.1 (b.1 + b.2)).map fun b => b.1 + b.2

/-- A meter: how it was made. -/
structure MeterKind where
  channels : Nat
  attackTime : Nat
  releaseTime : Nat
  frequency : ℚ

namespace MeterKind

/-- The time between two notifications, in frames. -/
def interval (m : MeterKind) (sampleRate : Nat) : ℚ := sampleRate / m.frequency

/-- The level that a meter shows for a channel at frame `F`: the envelope of those frames up to `F` it has looked at. -/
noncomputable def level (m : MeterKind) (sampleRate : Nat) (frames : List Nat) (x : Nat → ℝ) (F : Nat) : ℝ :=
  ((Follower.new sampleRate m.attackTime m.releaseTime).run ((frames.filter (· ≤ F)).map x)).level

/-- The highest level that a meter shows for a channel from frame `a` to frame `b - 1`. -/
noncomputable def peak (m : MeterKind) (sampleRate : Nat) (frames : List Nat) (x : Nat → ℝ) (a b : Nat) : ℝ :=
  peakOf 0 ((frames.filter fun F => a ≤ F ∧ F < b).map (m.level sampleRate frames x))

/-- All that a meter reports of the signal `x` in a session with these blocks: whenever it reports, for each channel in
turn the highest level since the last report. -/
noncomputable def reports (m : MeterKind) (sampleRate : Nat) (blocks : List (Nat × Nat)) (x : Nat → Nat → ℝ) :
    List EnvelopeNotification :=
  let times := reportTimes (m.interval sampleRate) blocks
  ((0 :: times).zip times).flatMap fun p => (List.range m.channels).map fun c =>
    ⟨c, m.peak sampleRate (inspectedFrames (m.interval sampleRate) blocks) (x c) p.1 p.2⟩

/-- Blocks that a meter can take without a second round of its loop: they have at least as many frames as the meter has
channels, and no notification is due before the last of these. -/
def Steady (m : MeterKind) (sampleRate : Nat) (blocks : List (Nat × Nat)) : Prop :=
  ∀ b ∈ blocks, m.channels ≤ b.2 ∧ ¬ DueWithin (m.interval sampleRate) b.1 (b.1 + (m.channels - 1))

end MeterKind

namespace WithMeters

/-- Requests to nodes that are not meters. -/
def Request.other? {C : Type} : Request C → Option C
  | other c => some c
  | _ => none

/-- Requests to meters. -/
def Request.meter? {C : Type} : Request C → Option MeterRequest
  | meter r => some r
  | _ => none

end WithMeters

/-- A meter that is polled often enough: since the last poll, or since the beginning, there have never been more reports
than there are places in the channel (64). -/
def MeterPolled {S P C : Type} (m : MeterKind) (sampleRate full : Nat) (changes : Nat → List (Id × WithMeters.Request C))
    (i : Id) (ks : List (Call S P (WithMeters.Request C))) : Prop :=
  ∀ l < ks.length, ∃ p ≤ l, (p = 0 ∨ (i, .meter .poll) ∈ changes p) ∧
    m.channels * (reportTimes (m.interval sampleRate) (sessionBlocks full (ks.take (l + 1)))).length ≤
      64 + m.channels * (reportTimes (m.interval sampleRate) (sessionBlocks full (ks.take p))).length

end Rawdio
