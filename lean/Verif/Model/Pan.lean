import Mathlib.Data.Real.Basic
import Verif.Model.Buffer

/-!
# `effects/pan/pan_processor.rs`: the pan node

Over exact reals.  The values of the parameter `pan` in a block are given (see `Model/Parameter.lean`);
`get_parameter_values` gives one for each frame.  The two assertions at lines 13 and 14 are only there in
debug builds.
-/

namespace Rawdio
namespace Pan

/-- `l_gain`, `effects/pan/pan_processor.rs:23`. -/
noncomputable def leftGain (pan : ℝ) : ℝ := min (1 - pan) 1

/-- `r_gain`, `effects/pan/pan_processor.rs:24`. -/
noncomputable def rightGain (pan : ℝ) : ℝ := min (1 + pan) 1

/-- One frame, `effects/pan/pan_processor.rs:20-37`. -/
noncomputable def processFrame (panValues : List ℝ) (input output : Buf ℝ) (frame : Nat) : Res (Buf ℝ) := do
  let pan ← Buf.index panValues frame
  let left ← input.getSample ⟨0, frame⟩
  let right ← input.getSample ⟨1, frame⟩
  let output ← output.setSample ⟨0, frame⟩ (left * leftGain pan)
  output.setSample ⟨1, frame⟩ (right * rightGain pan)

/-- `process_audio`, `effects/pan/pan_processor.rs:12-38`. -/
noncomputable def processAudio (panValues : List ℝ) (input output : Buf ℝ) : Res (Buf ℝ) :=
  (List.range output.frameCount).foldlM (fun output frame => processFrame panValues input output frame) output

/-- `MIN_PAN` and `MAX_PAN`, `effects/pan/pan_node.rs:10-11`. -/
def InRange (pan : ℝ) : Prop := -1 ≤ pan ∧ pan ≤ 1

end Pan
end Rawdio
