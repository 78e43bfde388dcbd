import Verif.Model.Recorder
import Verif.Spec.Events

/-!
# Specification of recording

What a recorder should have recorded, from the requests and the blocks alone: no buffers, no channels.
-/

namespace Rawdio

/-- Frames `a`, `a + 1`, … (`n` of them) of a grid, each as the list of its first `channels` samples. -/
def Grid.framesIn {S : Type} (g : Grid S) (channels a n : Nat) : List (List S) :=
  (List.range' a n).map (fun f => (List.range channels).map (fun c => g.val c f))

/-- All frames of a grid. -/
def Grid.allFrames {S : Type} (g : Grid S) : List (List S) := g.framesIn g.channels 0 g.frames

/-- A request to start or to stop recording at a time. -/
structure RecordRequest where
  time : Int
  start : Bool

/-- Requests wait in the order of their times; a new one comes after those with the same time. -/
def enqueue (r : RecordRequest) : List RecordRequest → List RecordRequest
  | [] => [r]
  | q :: qs => if q.time ≤ r.time then q :: enqueue r qs else r :: q :: qs

/-- Whether frame `f` of a block is recorded: the last request at or before it decides, and if there is
none, what was the case before. -/
def recordedAt (before : Bool) (requests : List (Nat × Bool)) (f : Nat) : Bool :=
  ((requests.filter (fun r => decide (r.1 ≤ f))).getLast?.map Prod.snd).getD before

/-- What should have been recorded. -/
structure Recorded (S : Type) where
  recording : Bool
  waiting : List RecordRequest
  frames : List (List S)

namespace Recorded

variable {S : Type}

/-- Nothing recorded, nothing asked for. -/
def none : Recorded S := ⟨false, [], []⟩

/-- A block: the requests before its end take effect at their frames, and the frames during which
recording is on are recorded. -/
def block (sampleRate channels : Nat) (r : Recorded S) (input : Grid S) (start : Int) : Recorded S :=
  let blockEnd := start + Timestamp.fromSamples (input.frames : ℚ) sampleRate
  let due := r.waiting.filter (fun q => decide (q.time < blockEnd))
  let requests := due.map (fun q => (frameOf start q.time sampleRate, q.start))
  { recording := (due.getLast?.map RecordRequest.start).getD r.recording
    waiting := r.waiting.filter (fun q => decide (blockEnd ≤ q.time))
    frames := r.frames ++ ((List.range input.frames).filter (recordedAt r.recording requests)).map
      (fun f => (List.range channels).map (fun c => input.val c f)) }

/-- An action. -/
def step (sampleRate channels : Nat) (r : Recorded S) : RecorderAction S → Recorded S
  | .recordNow => { r with waiting := enqueue ⟨0, true⟩ r.waiting }
  | .stopNow => { r with waiting := enqueue ⟨0, false⟩ r.waiting }
  | .stopAt t => { r with waiting := enqueue ⟨t, false⟩ r.waiting }
  | .takeRecording => r
  | .notifications => r
  | .numbersDrawn _ => r
  | .block input start => r.block sampleRate channels input start

/-- A history. -/
def run (sampleRate channels : Nat) (r : Recorded S) (as : List (RecorderAction S)) : Recorded S :=
  as.foldl (step sampleRate channels) r

end Recorded

/-- The blocks of a history: not empty, not absurdly long, at a time that is not negative, and with at
least the channels of the recorder. -/
def RecorderAction.Ok {S : Type} (sampleRate channels : Nat) : RecorderAction S → Prop
  | .block input start => 0 ≤ start ∧ 0 < input.frames ∧ input.frames * sampleRate ≤ 2 ^ 33 ∧
      channels ≤ input.channels
  | _ => True

/-- Requests that are not a block nor a pass of notifications. -/
def RecorderAction.IsRequest {S : Type} : RecorderAction S → Prop
  | .block _ _ => False
  | .notifications => False
  | _ => True

/-- One round of a history: some requests, a block, a pass of notifications. -/
structure Recorder.Round (S : Type) where
  requests : List (RecorderAction S)
  input : Grid S
  start : Int

/-- The actions of a round. -/
def Recorder.Round.actions {S : Type} (x : Recorder.Round S) : List (RecorderAction S) :=
  x.requests ++ [.block x.input x.start, .notifications]

end Rawdio
