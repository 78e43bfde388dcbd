import Mathlib.Algebra.Order.Ring.Rat
import Mathlib.Analysis.SpecialFunctions.Log.Basic
import Mathlib.Tactic.Linarith

/-! What is said about parameters in the arithmetic of `f64`. -/

namespace Rawdio

/-- The time in samples since the start, exactly; timestamps count units of 2^-32 seconds. -/
def samplesAt (t : Int) (sampleRate : Nat) : ℚ := t * sampleRate / 2 ^ 32

/-- The straight line from `v` to `w` over `n` samples, after `k` steps. -/
def straightLine (v w n : ℚ) (k : Nat) : ℚ := v + k * ((w - v) / n)

/-- The exponential curve from `v` to `w` over `n` samples, after `k` steps. -/
noncomputable def exponentialCurve (v w n : ℝ) (k : Nat) : ℝ := v * Real.exp (k * (Real.log (w / v) / n))

/-- A logarithm and an exponential function with a relative error of at most 2^-50, that is 4 units in the last place;
those of the usual libraries are better. -/
structure Accurate (ln exp : ℚ → ℚ) : Prop where
  ln : ∀ x : ℚ, 0 < x → |(ln x : ℝ) - Real.log x| ≤ |Real.log x| * (1 / 2 ^ 50)
  exp : ∀ x : ℚ, |x| ≤ 700 → |(exp x : ℝ) - Real.exp x| ≤ Real.exp x * (1 / 2 ^ 50)

end Rawdio
