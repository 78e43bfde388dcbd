import Verif.Model.PeriodicFloat

/-! What is said about periodic notifications in the arithmetic of `f64`. -/

namespace Rawdio
namespace Periodic

/-- The notifications of a series of advances. -/
def advancesFloat (p : Periodic) (fuel : Nat) : List Nat → Res (Periodic × List Bool)
  | [] => .ok (p, [])
  | n :: ns => do
    let (p, b) ← p.advanceFloat fuel n
    let (p, bs) ← advancesFloat p fuel ns
    .ok (p, b :: bs)

end Periodic
end Rawdio
