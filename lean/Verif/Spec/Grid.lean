import Verif.Model.Buffer

/-!
# Specification of buffers: a grid of samples

`Buf.sample? b c f` is the sample a buffer shows at channel `c` and frame `f`, `none` outside the
buffer.  It is defined from the documented meaning of the data (planar: one channel after the other)
and of a slice (a window on its parent), not from the accessors of the code.
-/

namespace Rawdio
namespace Buf

variable {S : Type}

/-- Spec of the contents of a buffer (documentation at `audio_buffer.rs:5-7`,
`borrowed_audio_buffer.rs:5-7`, `mutable_borrowed_audio_buffer.rs:4`). -/
def sample? : Buf S → Nat → Nat → Option S
  | owned data cc fc _, c, f => if c < cc ∧ f < fc then data[c * fc + f]? else none
  | slice p r _, c, f =>
    if c < r.channelCount ∧ f < r.frameCount then p.sample? (c + r.channel) (f + r.frame) else none

/-- Well-formed buffers: the flat data has the right length (`owned_audio_buffer.rs:21`) and slices
lie inside their parents (`borrowed_audio_buffer.rs:54`, `mutable_borrowed_audio_buffer.rs:51`). -/
def WF : Buf S → Prop
  | owned data cc fc _ => data.length = cc * fc
  | slice p r _ => p.WF ∧ r.channel + r.channelCount ≤ p.channelCount ∧
      r.frame + r.frameCount ≤ p.frameCount

/-- Buffers that can be written: every slice on the way to the owner is mutable
(`borrowed_audio_buffer.rs:82-84` panics otherwise). -/
def Writable : Buf S → Prop
  | owned .. => True
  | slice p _ m => m = true ∧ p.Writable

/-- Two buffers of the same layout: same channels, frames, sample rate and slices. -/
def SameShape : Buf S → Buf S → Prop
  | owned _ c f r, owned _ c' f' r' => c = c' ∧ f = f' ∧ r = r'
  | slice p r m, slice p' r' m' => p.SameShape p' ∧ r = r' ∧ m = m'
  | _, _ => False

end Buf
end Rawdio
