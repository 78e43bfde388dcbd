import Verif.Model.Parameter

/-! # Specification of parameters -/

namespace Rawdio

variable {V : Type}

/-- The times of the frames of some blocks, each given by its time and number of frames. -/
def frameTimes (sampleRate : Nat) (bs : List (Int × Nat)) : List Int :=
  bs.flatMap (fun b => (List.range b.2).map
    (fun i => Timestamp.incrementedBySamples b.1 i sampleRate))

namespace ParameterChange

/-- The time at which a change should begin. -/
def startTime (c : ParameterChange V) : Int :=
  match c.method with
  | .immediate => c.endTime
  | .linear s => s
  | .exponential s => s

/-- The number of changes at the front of the queue that have started at a time. -/
def started (cs : List (ParameterChange V)) (t : Int) : Nat :=
  (cs.takeWhile (fun c => decide (c.startTime ≤ t))).length

/-- The number of changes taken up after each of a list of frames if at most one is taken up per
frame, when `n` were taken up before. -/
def taken (cs : List (ParameterChange V)) : Nat → List Int → Nat
  | n, [] => n
  | n, t :: ts => taken cs (max n (min (n + 1) (started cs t))) ts

/-- The changes that have ended at a time. -/
def ended (cs : List (ParameterChange V)) (t : Int) : List (ParameterChange V) :=
  cs.filter (fun c => decide (c.endTime ≤ t))

/-- At most one change ends per frame, when `n` have ended before. -/
def OnePerFrame (cs : List (ParameterChange V)) : Nat → List Int → Prop
  | _, [] => True
  | n, t :: ts => (ended cs t).length ≤ n + 1 ∧ OnePerFrame cs (ended cs t).length ts

/-- The value of the last of some changes, or the given one if there is none. -/
def lastValue (v : V) (cs : List (ParameterChange V)) : V := (cs.getLast?.map value).getD v

end ParameterChange

namespace ParameterAction

/-- The blocks among some actions. -/
def blocks (as : List (ParameterAction V)) : List (Int × Nat) :=
  as.filterMap (fun a => match a with
    | .block t n => some (t, n)
    | _ => none)

/-- All requests are for immediate changes. -/
def Immediate (as : List (ParameterAction V)) : Prop :=
  ∀ v e m, ParameterAction.request v e m ∈ as → m = .immediate

end ParameterAction

namespace ParameterRange

/-- The values in a range. -/
def Mem [LE V] (r : ParameterRange V) (v : V) : Prop := r.minimum ≤ v ∧ v ≤ r.maximum

end ParameterRange

end Rawdio
