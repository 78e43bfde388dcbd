import Mathlib.Logic.Basic
import Verif.Model.Basic

/-!
# Loops that may not end
-/

namespace Rawdio

/-- A call whose loops may not end, `effects/sampler/sampler_processor.rs:166-198`,
`effects/oscillator/oscillator_processor.rs:20-22`, `effects/recorder/recorder_processor.rs:71-94`: `r n` is its result
if the loops go round at most `n` times, and `diverge` if that is not enough. -/
noncomputable def unbounded {α : Type} (r : Nat → Res α) : Res α :=
  open Classical in
  if h : ∃ x n, r n = .ok x then .ok h.choose
  else if ∃ n, r n = .error .panic then .error .panic
  else if ∃ n, r n = .error .block then .error .block
  else .error .diverge

end Rawdio
