import Mathlib.Analysis.SpecialFunctions.Trigonometric.Basic
import Verif.Model.SampleFloat
import Verif.Model.Voice

/-! # What a crossfade should be -/

namespace Rawdio
namespace Fade

/-- How much of the new sound is heard at a position of a fade of `n` frames: from 0 to 1 along half a sine wave. -/
noncomputable def share (n position : Nat) : ℝ :=
  1 / 2 + 1 / 2 * Real.sin ((2 * (position : ℝ) / n - 1) * (Real.pi / 2))

/-- A table of the shares in `f32`.  `2^-24` leaves room for the rounding to `f32`, which is at most `2^-25`, and for
errors of `sin` in `f64`. -/
structure Tabulated (fade : Fade Sample32) (n : Nat) : Prop where
  len : fade.len = n
  near : ∀ (p : Nat) (v : Sample32), fade.values[p]? = some v → 0 ≤ v.1 ∧ v.1 ≤ 1 ∧ |(v.1 : ℝ) - share n p| ≤ 1 / 2 ^ 24

end Fade
end Rawdio
