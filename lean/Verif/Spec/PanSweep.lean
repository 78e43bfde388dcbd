import Mathlib.Analysis.SpecialFunctions.Trigonometric.Basic

/-!
# Specification of a chord that moves from side to side

What `examples/src/bin/offline_process.rs` is meant to render, as a function of the time. Independent of the model.
-/

namespace Rawdio
namespace PanSweep

/-- The position `t` seconds after the start: from left to right in two seconds, then back in two seconds. -/
noncomputable def position (t : ℝ) : ℝ := if t < 2 then t - 1 else if t < 4 then 3 - t else -1

/-- The factor of the left side (`c = 0`) or the right side at a position: one side is turned down. -/
noncomputable def factor (c : ℕ) (x : ℝ) : ℝ := min (1 + if c = 0 then -x else x) 1

/-- Sines of some frequencies and levels, `t` seconds into their cycles. -/
noncomputable def chord (tones : List (ℝ × ℝ)) (t : ℝ) : ℝ :=
  (tones.map fun v => Real.sin (2 * Real.pi * (v.1 * t)) * v.2).sum

end PanSweep
end Rawdio
