import Verif.Spec.MeterNode

/-!
# Specification of the example with a meter
-/

namespace Rawdio
namespace MeterExample

/-- The meter of the example: two channels, an instant attack, a release in 300 ms, twice a second. -/
def meter : MeterKind := ⟨2, 0, 300000000, 2⟩

/-- The level at frame `F` of what fades out from beginning to end. -/
noncomputable def fadeLevel (frames F : Nat) : ℝ := 1 - min ((F : ℝ) / frames) 1

end MeterExample
end Rawdio
