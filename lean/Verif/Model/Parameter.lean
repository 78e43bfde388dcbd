import Mathlib.Order.Lattice
import Mathlib.Analysis.SpecialFunctions.Log.Basic
import Verif.Model.Timestamp

/-!
# `parameter/*`: audio parameters

Values are of an arbitrary type `V` with the operations the code uses (`Arith V`), about which nothing
is assumed.  `realArith` is exact real arithmetic.  The identifier of a parameter and the conversion of
each generated value to `f32` (`realtime_parameter.rs:100,105`) are left out: the generated values are
those before the conversion.  Nobody is assumed to store into the shared value
(`audio_parameter.rs:50-52`).
-/

namespace Rawdio

/-- The operations on `f64` used in `parameter/realtime_parameter.rs:79-156`; `ofSamples` is the result
of `Timestamp::as_samples` (`utility/timestamp.rs:110-112`) and `near` is `relative_eq!` of the crate
`approx`. -/
structure Arith (V : Type) where
  zero : V
  one : V
  add : V → V → V
  sub : V → V → V
  mul : V → V → V
  div : V → V → V
  ln : V → V
  exp : V → V
  ofSamples : ℚ → V
  near : V → V → Bool

/-- `f64::EPSILON`, the tolerance of `relative_eq!` at `parameter/realtime_parameter.rs:79,83`. -/
noncomputable def epsilon : ℝ := 1 / 2 ^ 52

open Classical in
/-- `relative_eq!` for finite numbers with the default tolerances (crate `approx`), as used at
`parameter/realtime_parameter.rs:79,83`. -/
noncomputable def relativeEq (a b : ℝ) : Bool :=
  decide (a = b ∨ |a - b| ≤ epsilon ∨ |a - b| ≤ max |a| |b| * epsilon)

/-- Exact real arithmetic for `parameter/realtime_parameter.rs:79-156`. Division by 0 and the logarithm
of a number that is not positive, which are not finite in `f64`, are meaningless here; theorems about
reals avoid them. -/
noncomputable def realArith : Arith ℝ where
  zero := 0
  one := 1
  add := (· + ·)
  sub := (· - ·)
  mul := (· * ·)
  div := (· / ·)
  ln := Real.log
  exp := Real.exp
  ofSamples := fun q => (q : ℝ)
  near := relativeEq

/-- `parameter/parameter_change.rs:4-8`. -/
inductive ChangeMethod
  | immediate
  | linear (startTime : Int)
  | exponential (startTime : Int)
  deriving DecidableEq

/-- `parameter/parameter_change.rs:11-15`. -/
structure ParameterChange (V : Type) where
  value : V
  endTime : Int
  method : ChangeMethod

/-- `parameter/realtime_parameter.rs:41-49`. -/
structure RealtimeParameter (V : Type) where
  value : V
  changes : List (ParameterChange V)
  increment : V
  coefficient : V
  current : ParameterChange V

namespace RealtimeParameter

variable {V : Type}

/-- `parameter/realtime_parameter.rs:52-68`. -/
def new (A : Arith V) (initial : V) : RealtimeParameter V where
  value := initial
  changes := []
  increment := A.zero
  coefficient := A.one
  current := ⟨initial, 0, .immediate⟩

/-- `is_static`, `parameter/realtime_parameter.rs:78-92`. -/
def isStatic (A : Arith V) (p : RealtimeParameter V) : Bool :=
  A.near p.coefficient A.one && A.near p.increment A.zero && p.changes.isEmpty

/-- The length of a ramp in samples, `parameter/realtime_parameter.rs:124-125,140-141`. -/
def duration (A : Arith V) (endTime time : Int) (sampleRate : Nat) : V :=
  A.sub (A.ofSamples (Timestamp.asSamples endTime sampleRate))
    (A.ofSamples (Timestamp.asSamples time sampleRate))

/-- `parameter/realtime_parameter.rs:128`. -/
def slope (A : Arith V) (target value : V) (endTime time : Int) (sampleRate : Nat) : V :=
  A.div (A.sub target value) (duration A endTime time sampleRate)

/-- `parameter/realtime_parameter.rs:138-144`. -/
def factor (A : Arith V) (target value : V) (endTime time : Int) (sampleRate : Nat) : V :=
  A.exp (A.div (A.ln (A.div target value)) (duration A endTime time sampleRate))

/-- `parameter/realtime_parameter.rs:113-150`: starting the first pending change if it is due. -/
def begin (A : Arith V) (p : RealtimeParameter V) (time : Int) (sampleRate : Nat) (value : V) :
    RealtimeParameter V :=
  match p.changes with
  | [] => p
  | c :: rest =>
    match c.method with
    | .immediate =>
      if c.endTime ≤ time then
        { p with increment := A.zero, coefficient := A.one, current := c, changes := rest }
      else p
    | .linear startTime =>
      if startTime ≤ time then
        { p with
          increment := slope A c.value value c.endTime time sampleRate
          coefficient := A.one
          current := c
          changes := rest }
      else p
    | .exponential startTime =>
      if startTime ≤ time then
        { p with
          increment := A.zero
          coefficient := factor A c.value value c.endTime time sampleRate
          current := c
          changes := rest }
      else p

/-- `parameter/realtime_parameter.rs:152-156`. -/
def advance (A : Arith V) (p : RealtimeParameter V) (time : Int) (value : V) : V :=
  if p.current.endTime ≤ time then p.current.value
  else A.add (A.mul value p.coefficient) p.increment

/-- `value_at_time`, `parameter/realtime_parameter.rs:112-157`. -/
def valueAtTime (A : Arith V) (p : RealtimeParameter V) (time : Int) (sampleRate : Nat) (value : V) :
    V × RealtimeParameter V :=
  let p := begin A p time sampleRate value
  (advance A p time value, p)

/-- One round of the loop, `parameter/realtime_parameter.rs:102-106`. -/
def frame (A : Arith V) (time : Int) (sampleRate : Nat)
    (s : RealtimeParameter V × V × List V) (i : Nat) : RealtimeParameter V × V × List V :=
  let r := valueAtTime A s.1 (Timestamp.incrementedBySamples time i sampleRate) sampleRate s.2.1
  (r.2, r.1, s.2.2 ++ [r.1])

/-- `process`, `parameter/realtime_parameter.rs:94-110`: the values generated, and the parameter
afterwards. -/
def process (A : Arith V) (p : RealtimeParameter V) (time : Int) (frameCount sampleRate : Nat) :
    List V × RealtimeParameter V :=
  if isStatic A p then (List.replicate frameCount p.value, p)
  else
    let s := (List.range frameCount).foldl (frame A time sampleRate) (p, p.value, [])
    (s.2.2, { s.1 with value := s.2.1 })

/-- Rendering block after block (time and number of frames), as `Dsp::process_audio` does at
`graph/dsp.rs:81-87`. -/
def processAll (A : Arith V) (sampleRate : Nat) : RealtimeParameter V → List (Int × Nat) →
    List V × RealtimeParameter V
  | p, [] => ([], p)
  | p, b :: bs =>
    let x := process A p b.1 b.2 sampleRate
    let y := processAll A sampleRate x.2 bs
    (x.1 ++ y.1, y.2)

/-- `add_parameter_change`, `parameter/realtime_parameter.rs:167-172`: a stable sort by end time. -/
def addChange (p : RealtimeParameter V) (c : ParameterChange V) : RealtimeParameter V :=
  { p with changes := (p.changes ++ [c]).mergeSort (fun a b => decide (a.endTime ≤ b.endTime)) }

/-- `cancel_scheduled_changes_ending_after`, `parameter/realtime_parameter.rs:174-177`. -/
def cancelEndingAfter (p : RealtimeParameter V) (time : Int) : RealtimeParameter V :=
  { p with changes := p.changes.filter (fun c => decide (time ≤ c.endTime)) }

/-- `cancel_scheduled_changes`, `parameter/realtime_parameter.rs:179-181`. -/
def cancelAll (p : RealtimeParameter V) : RealtimeParameter V := { p with changes := [] }

end RealtimeParameter

/-- `parameter/parameter_range.rs:1-5`. -/
structure ParameterRange (V : Type) where
  default : V
  minimum : V
  maximum : V

namespace ParameterRange

variable {V : Type}

/-- `is_valid`, `parameter/parameter_range.rs:24-34`. -/
def Valid [LE V] (r : ParameterRange V) : Prop :=
  r.minimum ≤ r.maximum ∧ r.minimum ≤ r.default ∧ r.default ≤ r.maximum

/-- `clamp`, `parameter/parameter_range.rs:36-38`. -/
def clamp [LinearOrder V] (r : ParameterRange V) (v : V) : V := max r.minimum (min v r.maximum)

end ParameterRange

/-- What can be done to a parameter: a request for a change (`audio_parameter.rs:55-113`), the two
cancellations (`audio_parameter.rs:116-133`) and rendering a block
(`graph/dsp.rs`, `realtime_parameter.rs:94`). -/
inductive ParameterAction (V : Type)
  | request (value : V) (endTime : Int) (method : ChangeMethod)
  | cancel
  | cancelEndingAfter (endTime : Int)
  | block (time : Int) (frames : Nat)

/-- The effect of an action on a parameter with a range, and the values it generates.  Requested
values are clamped in `audio_parameter.rs:63,78,101`. -/
def RealtimeParameter.act {V : Type} [LinearOrder V] (A : Arith V) (r : ParameterRange V)
    (sampleRate : Nat) (p : RealtimeParameter V) : ParameterAction V → List V × RealtimeParameter V
  | .request v e m => ([], p.addChange ⟨r.clamp v, e, m⟩)
  | .cancel => ([], p.cancelAll)
  | .cancelEndingAfter t => ([], p.cancelEndingAfter t)
  | .block t n => p.process A t n sampleRate

/-- A sequence of actions, with all values generated, as `audio_parameter.rs:55-133` and
`realtime_parameter.rs:94-181` perform them. -/
def RealtimeParameter.actAll {V : Type} [LinearOrder V] (A : Arith V) (r : ParameterRange V)
    (sampleRate : Nat) : RealtimeParameter V → List (ParameterAction V) →
    List V × RealtimeParameter V
  | p, [] => ([], p)
  | p, a :: as =>
    let x := act A r sampleRate p a
    let y := actAll A r sampleRate x.2 as
    (x.1 ++ y.1, y.2)

end Rawdio
