import Mathlib.Algebra.BigOperators.Group.Finset.Basic
import Verif.Model.Oscillator
import Verif.Spec.Grid

/-!
# Specification of the oscillator

The table is one cycle of a periodic signal, read at the number of cycles gone by
(`effects/oscillator/oscillator_node.rs:91-96`: "it plays through wavetable every 1.0 / frequency seconds. If there
isn't a sample at the desired index, it will linearly interpolate between the two nearest samples").
-/

namespace Rawdio
namespace Oscillator

/-- Cycles gone by after `t` frames of the given frequencies. -/
noncomputable def cycles (frequency : ℕ → ℝ) (sampleRate : Nat) (t : ℕ) : ℝ :=
  ∑ i ∈ Finset.range t, frequency i / sampleRate

/-- A whole number of cycles. -/
def Whole (x : ℝ) : Prop := ∃ n : ℕ, x = n

/-- The periodic table at `x` cycles: a line between the two nearest samples, the first one following the last. -/
noncomputable def tableAt (table : List ℝ) (x : ℝ) : ℝ :=
  let offset := Int.fract x * table.length
  let i := ⌊offset⌋₊
  (1 - Int.fract offset) * table.getD i 0 + Int.fract offset * table.getD ((i + 1) % table.length) 0

/-- A block as the engine presents it. -/
structure OscBlock where
  frequency : List ℝ
  gain : List ℝ
  output : Buf ℝ
  al : Nat → Nat × Nat

/-- The block carries the frequencies and gains from time `t` on. -/
def OscBlock.Carries (b : OscBlock) (sampleRate : Nat) (frequency gain : ℕ → ℝ) (t : Nat) : Prop :=
  b.output.WF ∧ b.output.Writable ∧ 0 < b.output.channelCount ∧ b.output.sampleRate = sampleRate ∧
  b.frequency.length = b.output.frameCount ∧ b.gain.length = b.output.frameCount ∧
  ∀ f < b.output.frameCount, b.frequency[f]? = some (frequency (t + f)) ∧ b.gain[f]? = some (gain (t + f))

/-- The blocks carry the frequencies and gains one after the other. -/
def AllCarry (sampleRate : Nat) (frequency gain : ℕ → ℝ) : Nat → List OscBlock → Prop
  | _, [] => True
  | t, b :: bs => b.Carries sampleRate frequency gain t ∧ AllCarry sampleRate frequency gain (t + b.output.frameCount) bs

/-- How many frames there are in the blocks. -/
def frames (blocks : List OscBlock) : Nat := (blocks.map (fun b => b.output.frameCount)).sum

/-- The outputs satisfy `P t v` for the value `v` at each frame `t`, the same on every channel. -/
def Plays (P : ℕ → ℝ → Prop) : Nat → List OscBlock → List (Buf ℝ) → Prop
  | _, [], [] => True
  | t, b :: bs, o :: os =>
    (b.output.SameShape o ∧ ∀ f < b.output.frameCount, ∃ v, P (t + f) v ∧
      ∀ c < b.output.channelCount, o.sample? c f = some v) ∧
    Plays P (t + b.output.frameCount) bs os
  | _, _, _ => False

/-- The signal that `with_harmonics` describes (`effects/oscillator/oscillator_node.rs:62-66`) at `x` cycles: the sum of
the harmonics, the `k`-th of them at level `levels[k]` with `k + 1` cycles in a cycle of the fundamental. -/
noncomputable def harmonicSum (levels : List Level) (x : ℝ) : ℝ :=
  ∑ k ∈ Finset.range levels.length, (levels.getD k ⟨0⟩).linear * Real.sin (2 * Real.pi * (k + 1) * x)

end Oscillator
end Rawdio
