import Verif.Model.Adsr
import Verif.Spec.Events

/-!
# Specification of the ADSR node

Frame by frame: no blocks are cut and no queue is kept.
-/

namespace Rawdio

/-- The values of an envelope for `n` frames from frame `f` on: before each frame the events of that frame
are applied, in their order. -/
noncomputable def adsrValues (events : List (Nat × AdsrEventType)) :
    Nat → Nat → AdsrEnvelope → AdsrEnvelope × List ℝ
  | _, 0, e => (e, [])
  | f, n + 1, e =>
    let e := ((events.filter (fun x => x.1 = f)).foldl (fun e x => e.apply x.2) e).process
    let rest := adsrValues events (f + 1) n e
    (rest.1, e.envelope :: rest.2)

/-- A block of the history of an ADSR node: the events sent since the last block, its time, its input and
what is in the output buffer before. -/
structure AdsrBlock where
  sent : List AdsrEvent
  start : Int
  input : Grid ℝ
  output : Grid ℝ

namespace AdsrBlock

/-- Blocks as the engine makes them, for a node with buffers of up to `maximum` frames: neither empty nor
absurdly long, input and output of the same shape. -/
structure Ok (sampleRate maximum : Nat) (b : AdsrBlock) : Prop where
  nonempty : 0 < b.input.frames
  short : b.input.frames * sampleRate ≤ 2 ^ 33
  fits : b.input.frames ≤ maximum
  frames : b.output.frames = b.input.frames
  channels : b.output.channels = b.input.channels

/-- The output of a block is its input times gains, frame by frame, on all channels. -/
def Scaled (b : AdsrBlock) (out : Grid ℝ) (gain : Nat → ℝ) : Prop :=
  out.channels = b.input.channels ∧ out.frames = b.input.frames ∧
    ∀ c f, c < b.input.channels → f < b.input.frames → out.val c f = b.input.val c f * gain f

/-- The outputs of consecutive blocks are their inputs times one sequence of gains. -/
def Plays : List AdsrBlock → List (Grid ℝ) → (Nat → ℝ) → Prop
  | [], [], _ => True
  | b :: bs, o :: os, gain => b.Scaled o gain ∧ Plays bs os (fun n => gain (b.input.frames + n))
  | _, _, _ => False

/-- A history played frame by frame, from the events `waiting` and the envelope `e` on: in each block all
events there are, in time order, take effect at the frames of their times if they are before the block's
end, and wait if not. -/
def Follows (sampleRate : Nat) :
    List AdsrEvent → AdsrEnvelope → List AdsrBlock → List (Grid ℝ) → Prop
  | _, _, [], [] => True
  | waiting, e, b :: bs, o :: os => ∃ order : List AdsrEvent,
    order.Perm (waiting ++ b.sent) ∧ InTimeOrder order ∧
    let blockEnd := b.start + Timestamp.fromSamples (b.input.frames : ℚ) sampleRate
    let due := (order.filter (fun x => decide (x.time < blockEnd))).map
      (fun x => (frameOf b.start x.time sampleRate, x.eventType))
    let result := adsrValues due 0 b.input.frames e
    b.Scaled o (fun f => result.2.getD f 0) ∧
      Follows sampleRate (order.filter (fun x => decide (blockEnd ≤ x.time))) result.1 bs os
  | _, _, _, _ => False

/-- The frames of several blocks. -/
def totalFrames (bs : List AdsrBlock) : Nat := (bs.map (fun b => b.input.frames)).sum

end AdsrBlock

namespace AdsrProcessor

/-- Sending several events. -/
def sendAll (p : AdsrProcessor) (es : List AdsrEvent) : Res AdsrProcessor := es.foldlM send p

/-- A history of blocks, with the outputs. -/
noncomputable def run (p : AdsrProcessor) : List AdsrBlock → Res (AdsrProcessor × List (Grid ℝ))
  | [] => .ok (p, [])
  | b :: bs => do
    let p ← p.sendAll b.sent
    let (p, out) ← p.processAudio b.input b.output b.start
    let (p, outs) ← run p bs
    .ok (p, out :: outs)

end AdsrProcessor

/-- The number of frames of a stage of `time` seconds: never less than one frame. -/
noncomputable def stageFrames (time : ℝ) (sampleRate : Nat) : Nat := max 1 ⌈time * sampleRate⌉₊

/-- The history of one note of a new node: blocks without events, a block before which the times and the
level were set and the note was started, more blocks, a block before which the note was ended, and more
blocks. -/
structure AdsrNote where
  sampleRate : Nat
  maximum : Nat
  attack : ℝ
  decay : ℝ
  sustain : Level
  release : ℝ
  onTime : Int
  offTime : Int
  sequence : Nat → Nat
  before : List AdsrBlock
  on : AdsrBlock
  held : List AdsrBlock
  off : AdsrBlock
  after : List AdsrBlock

namespace AdsrNote

/-- What is sent to start the note: `set_adsr` and `note_on_at_time`. -/
def onEvents (h : AdsrNote) : List AdsrEvent :=
  [⟨h.sequence 0, 0, .setAttack h.attack⟩, ⟨h.sequence 1, 0, .setDecay h.decay⟩,
   ⟨h.sequence 2, 0, .setSustain h.sustain⟩, ⟨h.sequence 3, 0, .setRelease h.release⟩,
   ⟨h.sequence 4, h.onTime, .noteOn⟩]

/-- The blocks. -/
def blocks (h : AdsrNote) : List AdsrBlock := h.before ++ h.on :: (h.held ++ h.off :: h.after)

/-- The frame in which the note starts. -/
def onFrame (h : AdsrNote) : Nat :=
  AdsrBlock.totalFrames h.before + frameOf h.on.start h.onTime h.sampleRate

/-- The frame in which the note ends. -/
def offFrame (h : AdsrNote) : Nat :=
  AdsrBlock.totalFrames h.before + h.on.input.frames + AdsrBlock.totalFrames h.held +
    frameOf h.off.start h.offTime h.sampleRate

/-- The frames of the stages. -/
noncomputable def attackFrames (h : AdsrNote) : Nat := stageFrames h.attack h.sampleRate

/-- The frames of the stages. -/
noncomputable def decayFrames (h : AdsrNote) : Nat := stageFrames h.decay h.sampleRate

/-- The frames of the stages. -/
noncomputable def releaseFrames (h : AdsrNote) : Nat := stageFrames h.release h.sampleRate

/-- The note starts and ends in the blocks it should, and the level is one. -/
structure Valid (h : AdsrNote) : Prop where
  rate : 0 < h.sampleRate
  sustain : 0 ≤ h.sustain.linear ∧ h.sustain.linear ≤ 1
  sequence : StrictMono h.sequence
  blocks : ∀ b ∈ h.blocks, b.Ok h.sampleRate h.maximum
  before : ∀ b ∈ h.before, b.sent = []
  held : ∀ b ∈ h.held, b.sent = []
  after : ∀ b ∈ h.after, b.sent = []
  on : h.on.sent = h.onEvents
  off : h.off.sent = [⟨h.sequence 5, h.offTime, .noteOff⟩]
  start : 0 ≤ h.on.start
  onTime : 0 ≤ h.onTime
  onBefore : h.onTime < h.on.start + Timestamp.fromSamples (h.on.input.frames : ℚ) h.sampleRate
  offBefore : h.offTime < h.off.start + Timestamp.fromSamples (h.off.input.frames : ℚ) h.sampleRate

/-- The note is played with these gains. -/
def PlayedWith (h : AdsrNote) (gain : Nat → ℝ) : Prop :=
  ∃ p outs, (AdsrProcessor.new h.sampleRate h.maximum).run h.blocks = .ok (p, outs) ∧
    AdsrBlock.Plays h.blocks outs gain

end AdsrNote
end Rawdio
