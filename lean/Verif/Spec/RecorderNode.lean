import Verif.Model.RecorderNode
import Verif.Spec.AdsrSchedule
import Verif.Spec.Network
import Verif.Spec.Recorder

/-!
# Specification of recorders in an engine

What a recorder records in a session, from the requests and the signal that goes into it alone. Nothing is said about
blocks, buffers and channels.
-/

namespace Rawdio

/-- A request to start or to stop, with its time. -/
def RecorderRequest.asks : RecorderRequest → Option RecordRequest
  | recordNow => some ⟨0, true⟩
  | stopNow => some ⟨0, false⟩
  | stopAt t => some ⟨t, false⟩
  | _ => none

namespace WithRecorders

/-- Requests to nodes that are not recorders. -/
def Request.other? {C : Type} : Request C → Option C
  | other c => some c
  | _ => none

/-- Requests to recorders. -/
def Request.recorder? {C : Type} : Request C → Option RecorderRequest
  | recorder r => some r
  | _ => none

/-- The requests to recorder `i` to start or to stop, each with the number of frames that have been rendered before. -/
def sent {S P C : Type} (changes : Nat → List (Id × Request C)) (i : Id) (ks : List (Call S P (Request C))) :
    List (Nat × RecordRequest) :=
  (List.range ks.length).flatMap fun j => (changes j).filterMap fun x =>
    if x.1 = i then (x.2.recorder?.bind RecorderRequest.asks).map fun q => (framesIn (ks.take j), q) else none

end WithRecorders

/-- The schedule of a recorder: each of `sent` (the frames before it was sent, and the request) together with the frame
at which it takes effect, in the order in which they take effect. Requests that are there in time take effect in the
order of their times, and requests for the same time in the order in which they were sent. -/
structure RecordScheduled (sampleRate : Nat) (sent : List (Nat × RecordRequest))
    (schedule : List (Nat × Nat × RecordRequest)) : Prop where
  all : ∀ t, (schedule.map fun x => x.2).filter (fun x => x.2.time = t) = sent.filter fun x => x.2.time = t
  frames : ∀ x ∈ schedule, AtFrame sampleRate x.2.1 x.2.2.time x.1
  order : schedule.Pairwise fun x y => x.1 ≤ y.1 ∧ (y.2.1 ≤ x.1 → x.2.2.time ≤ y.2.2.time)

/-- Whether frame `F` of a session is recorded: the last request in the schedule that has taken effect decides. -/
def isRecorded (schedule : List (Nat × Nat × RecordRequest)) (F : Nat) : Bool :=
  recordedAt false (schedule.map fun x => (x.1, x.2.2.start)) F

/-- The frames of the signal `x` that are recorded in a session of `total` frames. -/
def recordedFrames {S : Type} (schedule : List (Nat × Nat × RecordRequest)) (channels total : Nat)
    (x : Nat → Nat → S) : List (List S) :=
  ((List.range total).filter (isRecorded schedule)).map fun F => (List.range channels).map fun c => x c F

/-- A recorder that is attended to: before every process call but the first its notifications are processed, once, and
then at most eight requests are made. -/
def RecorderAttended {S P C : Type} (changes : Nat → List (Id × WithRecorders.Request C)) (i : Id)
    (ks : List (Call S P (WithRecorders.Request C))) : Prop :=
  ∀ m < ks.length, ∃ requests : List RecorderRequest,
    ((changes m).filterMap fun y => if y.1 = i then y.2.recorder? else none) =
      (if m = 0 then [] else [.notifications]) ++ requests ∧
    requests.length ≤ 8 ∧ ∀ r ∈ requests, r ≠ .notifications

/-- Frames `a` to `b - 1` of the signal `x`. -/
def framesBetween {S : Type} (channels a b : Nat) (x : Nat → Nat → S) : List (List S) :=
  (List.range' a (b - a)).map fun F => (List.range channels).map fun c => x c F

/-- The frames that have been taken from a recorder, followed by those that `take_recording` would return. -/
def RecorderNode.got {S : Type} (s : RecorderNode S) : List (List S) :=
  s.taken.flatMap Grid.allFrames ++ (s.recorder.currentRecording.map Grid.allFrames).getD []

end Rawdio
