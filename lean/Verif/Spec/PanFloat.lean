import Verif.Spec.Render
import Verif.Model.SampleFloat

/-! # What panning means, with `f32` samples -/

namespace Rawdio
namespace Pan

/-- What a side is multiplied by when the pan is `away` from it: 1 as long as the pan is on its own side or in the
centre, and from there down to 0 in proportion. -/
def attenuation (away : ℚ) : ℚ := if away ≤ 0 then 1 else 1 - away

/-- How far the pan is from a side: channel 0 is the left side and channel 1 the right side. -/
def awayFrom (c : Nat) (pan : Sample32) : ℚ := if c = 0 then pan.1 else -pan.1

/-- A stereo block, with a value of the pan for each frame. -/
structure StereoBlock (panValues : List Sample32) (input output : Buf Sample32) : Prop where
  block : ValidBlock input output
  inStereo : input.channelCount = 2
  outStereo : output.channelCount = 2
  pans : output.frameCount ≤ panValues.length

end Pan
end Rawdio
