import Verif.Model.Basic

/-!
# Buffers as seen by the nodes

The nodes use buffers only through the trait `AudioBuffer`.  C29 and C30 show that buffers, also through
slices, behave as grids of samples; the models of the nodes use such a grid directly, with a window for a
slice of frames (`MutableBorrowedAudioBuffer::slice_frames`).  `Lemmas/Grid.lean` shows that the
operations below are what the operations on buffers do.
-/

namespace Rawdio

/-- A buffer as a grid of samples: `channel_count`, `frame_count` and the samples,
`buffer/audio_buffer.rs:62-65,150-153`.  `val` has no meaning outside the range. -/
structure Grid (S : Type) where
  channels : Nat
  frames : Nat
  val : Nat → Nat → S

/-- A slice of frames, `buffer/mutable_borrowed_audio_buffer.rs:12-22`: `offset` and `count` are its
arguments. -/
structure Window where
  offset : Nat
  count : Nat

namespace Grid

variable {S : Type}

/-- All frames of a buffer (no slice), `buffer/audio_buffer.rs:65`. -/
def all (g : Grid S) : Window := ⟨0, g.frames⟩

/-- `get_sample` through a slice, `buffer/audio_buffer.rs:150-153`. -/
def get (g : Grid S) (w : Window) (c f : Nat) : Res S :=
  if c < g.channels ∧ f < w.count ∧ w.offset + f < g.frames then .ok (g.val c (w.offset + f))
  else .error .panic

/-- `set_sample` through a slice, `buffer/audio_buffer.rs:138-141`. -/
def set (g : Grid S) (w : Window) (c f : Nat) (v : S) : Res (Grid S) :=
  if c < g.channels ∧ f < w.count ∧ w.offset + f < g.frames then
    .ok { g with val := fun c' f' => if c' = c ∧ f' = w.offset + f then v else g.val c' f' }
  else .error .panic

/-- `add_from` on the first `channelCount` channels, `buffer/audio_buffer.rs:156-182`; `dst` is written
through the slice `w`. -/
def addFrom [Add S] (dst : Grid S) (w : Window) (src : Grid S) (srcFrame dstFrame channelCount
    frameCount : Nat) : Res (Grid S) :=
  if frameCount = 0 ∨ channelCount = 0 then .ok dst
  else if channelCount ≤ src.channels ∧ srcFrame + frameCount ≤ src.frames ∧
      channelCount ≤ dst.channels ∧ dstFrame + frameCount ≤ w.count ∧
      w.offset + dstFrame + frameCount ≤ dst.frames then
    .ok { dst with
      val := fun c f =>
        if c < channelCount ∧ w.offset + dstFrame ≤ f ∧ f < w.offset + dstFrame + frameCount then
          dst.val c f + src.val c (srcFrame + (f - (w.offset + dstFrame)))
        else dst.val c f }
  else .error .panic

/-- `copy_from` on the first `channelCount` channels, `buffer/audio_buffer.rs:217-235`. -/
def copyFrom (dst src : Grid S) (srcFrame dstFrame channelCount frameCount : Nat) : Res (Grid S) :=
  if channelCount = 0 then .ok dst
  else if channelCount ≤ src.channels ∧ srcFrame + frameCount ≤ src.frames ∧
      channelCount ≤ dst.channels ∧ dstFrame + frameCount ≤ dst.frames then
    .ok { dst with
      val := fun c f =>
        if c < channelCount ∧ dstFrame ≤ f ∧ f < dstFrame + frameCount then
          src.val c (srcFrame + (f - dstFrame))
        else dst.val c f }
  else .error .panic

end Grid
end Rawdio
