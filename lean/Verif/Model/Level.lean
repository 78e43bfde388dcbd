import Mathlib.Analysis.SpecialFunctions.Pow.Real
import Mathlib.Analysis.SpecialFunctions.Log.Base
import Verif.Model.Parameter

/-!
# `utility/level.rs`: levels

Over exact reals.  The conversions to and from `f32` are left out.
-/

namespace Rawdio

/-- `utility/level.rs:5-7`. -/
structure Level where
  linear : ℝ

namespace Level

/-- `MINUS_INFINITY_DECIBELS`, `utility/level.rs:1`. -/
noncomputable def minusInfinityDecibels : ℝ := -128

/-- `from_linear`, `utility/level.rs:46-50`. -/
def fromLinear (x : ℝ) : Level := ⟨x⟩

/-- `unity`, `utility/level.rs:11-13`. -/
noncomputable def unity : Level := fromLinear 1

/-- `zero`, `utility/level.rs:16-18`. -/
noncomputable def zero : Level := fromLinear 0

open Classical in
/-- `from_db`, `utility/level.rs:21-29`. -/
noncomputable def fromDb (db : ℝ) : Level :=
  if db ≤ minusInfinityDecibels then ⟨0⟩ else ⟨(10 : ℝ) ^ (db / 20)⟩

open Classical in
/-- `as_db`, `utility/level.rs:37-43`. -/
noncomputable def asDb (l : Level) : ℝ :=
  if l.linear ≤ 1 / 10 ^ 9 then minusInfinityDecibels else 20 * Real.logb 10 l.linear

open Classical in
/-- `clamp`, `utility/level.rs:63-67`; `f64::clamp` panics when its bounds are not in order. -/
noncomputable def clamp (l lo hi : Level) : Res Level :=
  if lo.linear ≤ hi.linear then .ok ⟨max lo.linear (min l.linear hi.linear)⟩ else .error .panic

/-- `is_zero`, `utility/level.rs:70-72`. -/
noncomputable def isZero (l : Level) : Bool := relativeEq l.linear 0

/-- `is_unity`, `utility/level.rs:75-77`. -/
noncomputable def isUnity (l : Level) : Bool := relativeEq l.linear 1

end Level
end Rawdio
