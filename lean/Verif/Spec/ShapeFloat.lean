import Verif.Model.SampleFloat

/-! # What the lookup of the waveshaper should give -/

namespace Rawdio
namespace Shape32

/-- Where a sample between -1 and 1 lies in a table, counted in points: -1 is the first and 1 the last. -/
def place (x : ℚ) (length : Nat) : ℚ := (x + 1) / 2 * ((length - 1 : Nat) : ℚ)

end Shape32
end Rawdio
