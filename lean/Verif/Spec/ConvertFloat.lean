import Verif.Model.SampleFloat
import Verif.Spec.Render

/-! # What sample rate conversion should give, without rounding of the result -/

namespace Rawdio
namespace Convert32

/-- A source and a destination of which some channels are converted, from the first frame on.  Rates up to `2^20` are
`f32` numbers. -/
structure ValidConversion (dst src : Buf Sample32) (channels : Nat) : Prop where
  srcWF : src.WF
  dstWF : dst.WF
  writable : dst.Writable
  nonempty : 0 < src.frameCount
  srcChannels : channels ≤ src.channelCount
  dstChannels : channels ≤ dst.channelCount
  srcRate : 0 < src.sampleRate ∧ src.sampleRate ≤ 2 ^ 20
  dstRate : 0 < dst.sampleRate ∧ dst.sampleRate ≤ 2 ^ 20

/-- `y` is the value at `x`, counted in frames, of the polygon through the samples of a channel, up to an error of
`2^-21` of the samples around it. -/
def NearPolygon (src : Buf Sample32) (c : Nat) (x : ℚ) (y : Sample32) : Prop :=
  ∃ a b : Sample32, src.sample? c (min ⌊x⌋₊ (src.frameCount - 1)) = some a ∧
    src.sample? c (min ⌈x⌉₊ (src.frameCount - 1)) = some b ∧
    |y.1 - ((1 - (x - ⌊x⌋₊)) * a.1 + (x - ⌊x⌋₊) * b.1)| ≤ max |a.1| |b.1| * (1 / 2 ^ 21) + 1 / 2 ^ 148

end Convert32
end Rawdio
