import Mathlib.Algebra.BigOperators.Group.List.Basic
import Mathlib.Analysis.SpecialFunctions.Trigonometric.Basic
import Verif.Model.OscillatorFloat

/-!
# Specification of the oscillator with rounding
-/

namespace Rawdio
namespace Oscillator64

/-- The cycles gone by at the end of frames of these frequencies, without any rounding. -/
def cycles (sampleRate : Nat) (frequencies : List ℚ) : ℚ :=
  (frequencies.map (fun f => f / (sampleRate : ℚ))).sum

/-- The frequencies of all blocks. -/
def frequencies (blocks : List (List (ℚ × ℚ))) : List ℚ := blocks.flatten.map Prod.snd

/-- How far `x` is from the nearest whole number is at most `d`. -/
def NearWhole (d x : ℚ) : Prop := ∃ k : ℤ, |x - k| ≤ d

/-- A table of one cycle of a sine with 8192 samples, each of them with an error of at most 2^-50. -/
def SineTable (table : List ℚ) : Prop :=
  table.length = 8192 ∧ ∀ i < 8192, |(table.getD i 0 : ℝ) - Real.sin (2 * Real.pi * (i / 8192))| ≤ 1 / 2 ^ 50

end Oscillator64
end Rawdio
