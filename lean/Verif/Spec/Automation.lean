import Mathlib.Analysis.SpecialFunctions.Pow.Real
import Verif.Model.Effects

/-!
# Specification of automation

The curve that a program draws for a parameter with sets and ramps. Independent of the model: no frames, no blocks.
Times are in units of 2⁻³² s.
-/

namespace Rawdio

/-- A ramp to `value` from the time `start` to the time `finish`, or, if these are the same, a set of the value. -/
structure AutomationPoint where
  value : ℝ
  start : Int
  finish : Int

namespace Automation

/-- The point between `v` and `w` at the fraction `x` of a linear ramp. -/
def linear (v w x : ℝ) : ℝ := v + x * (w - v)

/-- The point between `v` and `w` at the fraction `x` of an exponential ramp. -/
noncomputable def exponential (v w x : ℝ) : ℝ := v * (w / v) ^ x

open Classical in
/-- The curve through some points, from the value `v`: each ramp goes from the value before it to its own. -/
noncomputable def curve (blend : ℝ → ℝ → ℝ → ℝ) : ℝ → List AutomationPoint → ℝ → ℝ
  | v, [], _ => v
  | v, p :: ps, t =>
    if t < p.start then v
    else if t < p.finish then blend v p.value ((t - p.start) / (p.finish - p.start))
    else curve blend p.value ps t

/-- At the time `t` no ramp is under way. -/
def Flat : List AutomationPoint → Int → Prop
  | [], _ => True
  | p :: ps, t => t < p.start ∨ p.start ≤ t ∧ p.finish ≤ t ∧ Flat ps t

/-- The request for a point (`parameter/audio_parameter.rs`). -/
def request (ramp : Int → ChangeMethod) (name : String) (p : AutomationPoint) : ParameterRequest :=
  .change name ⟨p.value, p.finish, if p.start = p.finish then .immediate else ramp p.start⟩

/-- The point as it is for a request that arrives at the time `T`: what is in the past by then happens at `T`. -/
def arriving (T : Int) (p : AutomationPoint) : AutomationPoint := ⟨p.value, max p.start T, max p.finish T⟩

/-- Each ramp takes at least `frames` frames, ends before the next begins, and sets are two frames apart (a set may be
directly before or after a ramp). `g` is the length of a frame. -/
def Spaced (g frames : ℝ) (ps : List AutomationPoint) : Prop :=
  (∀ p ∈ ps, p.start = p.finish ∨ frames * g ≤ p.finish - p.start) ∧
    ps.IsChain fun p q => p.finish ≤ q.start ∧ (p.start = p.finish → q.start = q.finish → 2 * g ≤ q.start - p.start)

end Automation
end Rawdio
