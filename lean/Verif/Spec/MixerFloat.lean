import Verif.Spec.Render
import Verif.Model.SampleFloat

/-! # What mixing with levels means, without any rounding -/

namespace Rawdio
namespace Mixer32

/-- A sample of a channel, 0 where there is none. -/
def sampleAt (b : Buf Sample32) (c f : Nat) : ℚ := match b.sample? c f with
  | some x => x.1
  | none => 0

/-- What was in the output before, and the sum of the inputs times their levels. -/
def exactOut (level : Nat → Nat → ℚ) (input output : Buf Sample32) (o f : Nat) : ℚ :=
  sampleAt output o f + ((List.range input.channelCount).map fun i => sampleAt input i f * level i o).sum

/-- The size of what is added up; levels below 1 count as 1. -/
def size (level : Nat → Nat → ℚ) (input output : Buf Sample32) (o f : Nat) : ℚ :=
  |sampleAt output o f| + ((List.range input.channelCount).map fun i => |sampleAt input i f| * max 1 |level i o|).sum

end Mixer32
end Rawdio
