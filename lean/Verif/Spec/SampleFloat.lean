import Verif.Model.SampleFloat
import Verif.Spec.Render

/-!
# Specification of a mix

What the inputs of a node should be, as real numbers and without any rounding.
-/

namespace Rawdio

/-- The exact sum of some samples. -/
def exactMix (l : List Sample32) : ℚ := (l.map (fun x => x.1)).sum

/-- The sum of the sizes of some samples. -/
def mixLevel (l : List Sample32) : ℚ := (l.map (fun x => |x.1|)).sum

end Rawdio
