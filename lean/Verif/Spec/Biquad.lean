import Mathlib.Analysis.SpecialFunctions.Trigonometric.Basic
import Mathlib.Analysis.SpecialFunctions.Complex.Circle
import Verif.Model.Biquad
import Verif.Spec.Grid

/-!
# Specification of the filter

The difference equation of a second order filter over the whole history of the input, the frequency response of its
coefficients, and the analogue prototypes the six types stand for.
-/

namespace Rawdio
namespace Biquad

open Classical in
/-- Values within 10^-8 of 0 in the feedback and feedforward paths are replaced by 0. -/
noncomputable def flush (x : ℝ) : ℝ := if |x| ≤ 1 / 10 ^ 8 then 0 else x

/-- The output of the filter at each time, with the coefficients in use at that time; the input starts at time 0. -/
noncomputable def response (c : ℕ → Coefficients) (x : ℕ → ℝ) : ℕ → ℝ
  | 0 => (c 0).b0 * x 0
  | 1 => (c 1).b0 * x 1 + (c 1).b1 * flush (x 0) - (c 1).a1 * flush (response c x 0)
  | n + 2 => (c (n + 2)).b0 * x (n + 2) + (c (n + 2)).b1 * flush (x (n + 1)) + (c (n + 2)).b2 * flush (x n)
      - (c (n + 2)).a1 * flush (response c x (n + 1)) - (c (n + 2)).a2 * flush (response c x n)

/-- The transfer function of the coefficients. -/
noncomputable def transfer (c : Coefficients) (z : ℂ) : ℂ :=
  (c.b0 * z ^ 2 + c.b1 * z + c.b2) / (z ^ 2 + c.a1 * z + c.a2)

/-- The response to a sinusoid that advances by `θ` radians per frame. -/
noncomputable def atAngle (c : Coefficients) (θ : ℝ) : ℂ := transfer c (Complex.exp (θ * Complex.I))

/-- Spec of stability: bounded input gives bounded output, in proportion. -/
def Stable (c : Coefficients) : Prop :=
  ∃ C, ∀ (x : ℕ → ℝ) (M : ℝ), (∀ n, |x n| ≤ M) → ∀ n, |response (fun _ => c) x n| ≤ C * (M + 1 / 10 ^ 8)

/-- The frequency relative to the centre, as an analogue filter sees it: the square of
`tan (θ / 2) / tan (ω / 2)`. -/
noncomputable def warped (ω θ : ℝ) : ℝ := (Real.tan (θ / 2) / Real.tan (ω / 2)) ^ 2

/-- The squared gain of the analogue prototype at the squared relative frequency `t`: second order filters with
quality `q`, and shelves with the given linear gain. -/
noncomputable def prototype (type : FilterType) (q gain t : ℝ) : ℝ :=
  match type with
  | .lowPass => 1 / ((1 - t) ^ 2 + t / q ^ 2)
  | .highPass => t ^ 2 / ((1 - t) ^ 2 + t / q ^ 2)
  | .bandPass => (t / q ^ 2) / ((1 - t) ^ 2 + t / q ^ 2)
  | .notch => (1 - t) ^ 2 / ((1 - t) ^ 2 + t / q ^ 2)
  | .lowShelf => gain * (gain + t ^ 2) / (1 + gain * t ^ 2)
  | .highShelf => gain * (1 + gain * t ^ 2) / (gain + t ^ 2)

/-- Settings for which the filter is meant to work. -/
def Proper (p : Settings) (sampleRate : Nat) : Prop :=
  0 < p.frequency ∧ p.frequency < sampleRate / 2 ∧ 0 < p.q ∧ 0 < p.shelfGain

/-- Settings that the parameters allow (`effects/biquad/biquad_node.rs:38-57`). -/
def InRange (p : Settings) : Prop :=
  (20 ≤ p.frequency ∧ p.frequency ≤ 20000) ∧ (1 / 10 ≤ p.q ∧ p.q ≤ 10) ∧ (0 ≤ p.shelfGain ∧ p.shelfGain ≤ 10 ^ 5)

/-- The signals a filter is given over time: its input by channel, the settings and the gain. -/
structure Signals where
  x : ℕ → ℕ → ℝ
  settings : ℕ → Settings
  gain : ℕ → ℝ

/-- A block as the engine presents it. -/
structure FilterBlock where
  params : BlockParameters
  input : Buf ℝ
  output : Buf ℝ
  al : Nat → Nat × Nat

/-- The block carries the signals from time `t` on. -/
def FilterBlock.Carries (b : FilterBlock) (channels : Nat) (g : Signals) (t : Nat) : Prop :=
  b.input.WF ∧ b.output.WF ∧ b.output.Writable ∧ b.input.channelCount = channels ∧ b.output.channelCount = channels ∧
  b.input.frameCount = b.output.frameCount ∧ b.params.gain.length = b.output.frameCount ∧
  ∀ f < b.output.frameCount, (∀ c < channels, b.input.sample? c f = some (g.x c (t + f))) ∧
    b.params.frequency[f]? = some (g.settings (t + f)).frequency ∧ b.params.q[f]? = some (g.settings (t + f)).q ∧
    b.params.shelfGain[f]? = some (g.settings (t + f)).shelfGain ∧ b.params.gain[f]? = some (g.gain (t + f))

/-- The blocks carry the signals one after the other. -/
def AllCarry (channels : Nat) (g : Signals) : Nat → List FilterBlock → Prop
  | _, [] => True
  | t, b :: bs => b.Carries channels g t ∧ AllCarry channels g (t + b.output.frameCount) bs

/-- The outputs hold, one block after the other, the filtered input times the gain. -/
def Filtered (type : FilterType) (sampleRate channels : Nat) (g : Signals) : Nat → List FilterBlock → List (Buf ℝ) → Prop
  | _, [], [] => True
  | t, b :: bs, o :: os =>
    (b.output.SameShape o ∧ ∀ c < channels, ∀ f < b.output.frameCount, o.sample? c f =
      some (response (fun n => calculate type (g.settings n) sampleRate) (g.x c) (t + f) * g.gain (t + f))) ∧
    Filtered type sampleRate channels g (t + b.output.frameCount) bs os
  | _, _, _ => False

end Biquad
end Rawdio
