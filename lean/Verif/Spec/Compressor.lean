import Mathlib.Algebra.BigOperators.Group.Finset.Basic
import Verif.Model.Compressor

/-!
# Specification of the compressor

What the compressor does to a signal of any length, given the values of its parameters over time. Signals start at
frame 0. Times are in milliseconds, levels in decibels.
-/

namespace Rawdio
namespace Compressor

open Classical in
/-- How much of the level of a frame is still there at the next, when the level follows within the time `t`. Times are
rounded to nanoseconds. -/
noncomputable def weight (sampleRate : Nat) (t : ℝ) : ℝ :=
  if nanoseconds t = 0 then 0 else Real.exp (-1 / (sampleRate * (nanoseconds t / 10 ^ 9)))

open Classical in
/-- The level after `n` frames of `x`: it rises within the attack time and falls within the release time. -/
noncomputable def levelAfter (sampleRate : Nat) (attack release x : ℕ → ℝ) : ℕ → ℝ
  | 0 => 0
  | n + 1 =>
    let level := levelAfter sampleRate attack release x n
    let w := if level < |x n| then weight sampleRate (attack n) else weight sampleRate (release n)
    level * w + |x n| * (1 - w)

open Classical in
/-- Decibels; -128 for silence. -/
noncomputable def decibels (x : ℝ) : ℝ := if x ≤ 1 / 10 ^ 9 then -128 else 20 * Real.logb 10 x

/-- The mean level of the channels at frame `F`. -/
noncomputable def loudness (sampleRate channels : Nat) (attack release : ℕ → ℝ) (x : ℕ → ℕ → ℝ) (F : ℕ) : ℝ :=
  decibels (∑ c ∈ Finset.range channels, levelAfter sampleRate attack release (x c) (F + 1) / channels)

open Classical in
/-- The gain at a level: 1 up to half a knee above the threshold, and from there on what leaves `1 / ratio` of the
excess over the threshold. -/
noncomputable def reduction (level knee threshold ratio : ℝ) : ℝ :=
  if level < threshold + knee / 2 then 1
  else if (threshold - level) * (1 - 1 / ratio) ≤ -128 then 0
  else (10 : ℝ) ^ ((threshold - level) * (1 - 1 / ratio) / 20)

end Compressor
end Rawdio
