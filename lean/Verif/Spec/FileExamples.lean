import Verif.Spec.RowExamples
import Verif.Spec.SamplerLoop

/-!
# Specification of the examples that play files
-/

namespace Rawdio
namespace RowExamples

/-- The frequency of the filter in the example that sweeps it, `t` seconds after the start: up three decades in ten
seconds, and down in ten seconds. -/
noncomputable def sweepFrequency (t : ℝ) : ℝ :=
  if t < 10 then 20 * 1000 ^ (t / 10) else if t < 20 then 20 * 1000 ^ (2 - t / 10) else 20

/-- A file that is played again and again. -/
noncomputable def repeated (sample : Grid ℝ) (c F : Nat) : ℝ := Sampler.sampleFrame sample c (F % sample.frames)

end RowExamples
end Rawdio
