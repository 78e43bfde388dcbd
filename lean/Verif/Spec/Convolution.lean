import Verif.Model.Convolution
import Verif.Spec.Grid

/-!
# Specification of convolution

The direct sum over the impulse response and the whole past of the input.
-/

namespace Rawdio
namespace Convolver

/-- The convolution of `x`, which starts at time 0, with the first `n` values of `h`, at time `t`. -/
noncomputable def convolved (h : ℕ → ℝ) (n : ℕ) (x : ℕ → ℝ) (t : ℕ) : ℝ :=
  ∑ k ∈ Finset.range n, if k ≤ t then h k * x (t - k) else 0

/-- The signals over time: the input by channel, the wet and the dry level. -/
structure Signals where
  x : ℕ → ℕ → ℝ
  wet : ℕ → ℝ
  dry : ℕ → ℝ

/-- A block as the engine presents it. -/
structure ConvBlock where
  input : Buf ℝ
  output : Buf ℝ
  wet : List ℝ
  dry : List ℝ
  al : Nat → Nat → Nat × Nat × Nat

/-- The block carries the signals from time `t` on. -/
def ConvBlock.Carries (b : ConvBlock) (channels : Nat) (g : Signals) (t : Nat) : Prop :=
  b.input.WF ∧ b.output.WF ∧ b.output.Writable ∧ b.input.channelCount = channels ∧ b.output.channelCount = channels ∧
  b.input.frameCount = b.output.frameCount ∧ b.wet.length = b.output.frameCount ∧ b.dry.length = b.output.frameCount ∧
  ∀ f < b.output.frameCount, (∀ c < channels, b.input.sample? c f = some (g.x c (t + f))) ∧
    b.wet[f]? = some (g.wet (t + f)) ∧ b.dry[f]? = some (g.dry (t + f))

/-- The blocks carry the signals one after the other. -/
def AllCarry (channels : Nat) (g : Signals) : Nat → List ConvBlock → Prop
  | _, [] => True
  | t, b :: bs => b.Carries channels g t ∧ AllCarry channels g (t + b.output.frameCount) bs

/-- The outputs hold what was there before, plus the dry input, plus the wet convolution. -/
def Convolved (channels : Nat) (h : ℕ → ℕ → ℝ) (n : ℕ) (g : Signals) : Nat → List ConvBlock → List (Buf ℝ) → Prop
  | _, [], [] => True
  | t, b :: bs, o :: os =>
    (b.output.SameShape o ∧ ∀ c < channels, ∀ f < b.output.frameCount, o.sample? c f = (b.output.sample? c f).map
      (fun before => before + g.x c (t + f) * g.dry (t + f) + convolved (h c) n (g.x c) (t + f) * g.wet (t + f))) ∧
    Convolved channels h n g (t + b.output.frameCount) bs os
  | _, _, _ => False

end Convolver
end Rawdio
