import Mathlib.Analysis.SpecialFunctions.Trigonometric.Basic
import Verif.Model.Voice

/-! # The fade of the sampler over the reals, `effects/sampler/sampler_fade.rs` -/

namespace Rawdio
namespace Fade

/-- The values of a fade of `n` samples, `effects/sampler/sampler_fade.rs:11-17`, over the reals. -/
noncomputable def curve (n : Nat) : Fade ℝ :=
  ⟨(List.range n).map fun (p : Nat) => 1 / 2 + 1 / 2 * Real.sin ((2 * (p : ℝ) / n - 1) * (Real.pi / 2))⟩

/-- `Fade::new` with the length of 50 ms, `effects/sampler/sampler_fade.rs:8-20` and
`effects/sampler/sampler_processor.rs:35`. -/
noncomputable def new (sampleRate : Nat) : Fade ℝ := curve ⌈(sampleRate : ℝ) * (50 / 1000)⌉₊

end Fade
end Rawdio
