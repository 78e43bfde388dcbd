import Mathlib.Algebra.BigOperators.Group.Finset.Basic
import Verif.Model.Mixer
import Verif.Spec.Grid

/-!
# Specification of the mixer

Levels by input and output, with no matrix and no channel.
-/

namespace Rawdio

/-- What is done with a mixer: setting a level, or a block with its input and what is in the output before. -/
inductive MixerAction
  | set (input output : Nat) (level : Level)
  | block (al : Nat → Nat → Nat → Nat × Nat) (input output : Buf ℝ)

open Classical in
/-- The gain used for a level: levels within rounding of 0 or 1 count as 0 or 1. -/
noncomputable def effectiveGain (x : ℝ) : ℝ :=
  if |x| ≤ epsilon then 0 else if |x - 1| ≤ max |x| 1 * epsilon then 1 else x

/-- The samples of a buffer; 0 where there are none. -/
def Buf.sampleOr0 (b : Buf ℝ) (c f : Nat) : ℝ := (b.sample? c f).getD 0

/-- The result of a block has in each output the old samples plus the sum of the inputs times their
gains. -/
def Mixed (level : Nat → Nat → ℝ) (input output result : Buf ℝ) : Prop :=
  output.SameShape result ∧ ∀ o f, o < output.channelCount → f < output.frameCount →
    result.sample? o f = some (output.sampleOr0 o f +
      ∑ i ∈ Finset.range input.channelCount, input.sampleOr0 i f * effectiveGain (level i o))

/-- One level changed. -/
def setLevelOf (level : Nat → Nat → ℝ) (i o : Nat) (x : ℝ) : Nat → Nat → ℝ :=
  fun i' o' => if i' = i ∧ o' = o then x else level i' o'

/-- The results of the blocks of a history from the given levels on. -/
def MixedBlocks : (Nat → Nat → ℝ) → List MixerAction → List (Buf ℝ) → Prop
  | _, [], [] => True
  | level, .set i o x :: as, results => MixedBlocks (setLevelOf level i o x.linear) as results
  | level, .block _ input output :: as, result :: results =>
    Mixed level input output result ∧ MixedBlocks level as results
  | _, _, _ => False

namespace Mixer

/-- A history. -/
noncomputable def run (m : Mixer) : List MixerAction → Res (Mixer × List (Buf ℝ))
  | [] => .ok (m, [])
  | .set i o x :: as => do
    let m ← m.setLevel i o x
    run m as
  | .block al input output :: as => do
    let (m, result) ← m.processAudio al input output
    let (m, results) ← run m as
    .ok (m, result :: results)

end Mixer

/-- Levels are set for channels of the mixer; blocks have buffers with equally many frames. -/
def MixerAction.Ok (inputs outputs : Nat) : MixerAction → Prop
  | .set i o _ => i < inputs ∧ o < outputs
  | .block _ input output => input.WF ∧ output.WF ∧ output.Writable ∧ input.frameCount = output.frameCount

/-- At most 32 levels are set between two blocks; `n` have been set since the last one. -/
def AtMost32 : Nat → List MixerAction → Prop
  | _, [] => True
  | n, .set _ _ _ :: as => n < 32 ∧ AtMost32 (n + 1) as
  | _, .block _ _ _ :: as => AtMost32 0 as

end Rawdio
