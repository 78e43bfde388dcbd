import Verif.Model.GainFloat

/-!
# The pan node with `f32` samples

`effects/pan/pan_processor.rs`, with every operation rounded as the program rounds it.  The values of the parameter `pan`
in a block are given as `f32` numbers.  The two assertions at lines 13 and 14 are only there in debug builds.
Infinities, NaN and the sign of zero are not modelled.
-/

namespace Rawdio
namespace Pan

/-- `x.min(1.0)`, `effects/pan/pan_processor.rs:23-24`. -/
def atMostOne (x : Sample32) : Sample32 := if x.1 ≤ 1 then x else 1

/-- `l_gain`, `effects/pan/pan_processor.rs:23`: the difference is rounded. -/
def leftGain32 (pan : Sample32) : Sample32 := atMostOne ⟨Float32.round (1 - pan.1), Sample32.rep_round _⟩

/-- `r_gain`, `effects/pan/pan_processor.rs:24`: the sum is rounded. -/
def rightGain32 (pan : Sample32) : Sample32 := atMostOne (1 + pan)

/-- One frame, `effects/pan/pan_processor.rs:20-37`. -/
def processFrame32 (panValues : List Sample32) (input output : Buf Sample32) (frame : Nat) : Res (Buf Sample32) := do
  let pan ← Buf.index panValues frame
  let left ← input.getSample ⟨0, frame⟩
  let right ← input.getSample ⟨1, frame⟩
  let output ← output.setSample ⟨0, frame⟩ (left * leftGain32 pan)
  output.setSample ⟨1, frame⟩ (right * rightGain32 pan)

/-- `process_audio`, `effects/pan/pan_processor.rs:12-38`. -/
def processAudio32 (panValues : List Sample32) (input output : Buf Sample32) : Res (Buf Sample32) :=
  (List.range output.frameCount).foldlM (fun output frame => processFrame32 panValues input output frame) output

end Pan
end Rawdio
