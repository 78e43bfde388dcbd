import Verif.Model.Kernels

/-!
# `buffer/*.rs`: audio buffers

An audio buffer is either an `OwnedAudioBuffer` (flat planar data, one channel after the other) or a
slice (`BorrowedAudioBuffer` / `MutableBorrowedAudioBuffer`) of another buffer.  Mutation through
`&mut` returns the changed buffer; mutation through a slice changes the parent inside the returned
slice.  Sample rates are only stored and compared, so they are kept as a number.
`S` is an arbitrary type of samples; no algebraic law is used.
-/

namespace Rawdio

/-- `buffer/sample_location.rs:4-11`. -/
structure Loc where
  channel : Nat
  frame : Nat
  deriving DecidableEq, Repr

namespace Loc
/-- `sample_location.rs:56-61`. -/
def origin : Loc := ⟨0, 0⟩
/-- `sample_location.rs:20-22`. -/
def ofChannel (channel : Nat) : Loc := ⟨channel, 0⟩
/-- `sample_location.rs:25-27`. -/
def ofFrame (frame : Nat) : Loc := ⟨0, frame⟩
/-- `sample_location.rs:30-32`. -/
def offsetFrames (l : Loc) (n : Nat) : Loc := ⟨l.channel, l.frame + n⟩
/-- `sample_location.rs:35-37`. -/
def offsetChannels (l : Loc) (n : Nat) : Loc := ⟨l.channel + n, l.frame⟩
/-- `sample_location.rs:40-45`. -/
def withChannel (l : Loc) (channel : Nat) : Loc := ⟨channel, l.frame⟩
end Loc

/-- `buffer/sample_location.rs:64-69`. -/
structure Range where
  channel : Nat
  frame : Nat
  channelCount : Nat
  frameCount : Nat
  deriving DecidableEq, Repr

/-- Slicing `&l[start..stop]` (for example `owned_audio_buffer.rs:197`): panics unless
`start <= stop <= len`. -/
def sliceRange {S : Type} (l : List S) (start stop : Nat) : Res (List S) :=
  if start ≤ stop ∧ stop ≤ l.length then .ok ((l.drop start).take (stop - start))
  else .error .panic

/-- `data[0]` at `audio_buffer.rs:140,152`: panics on an empty slice. -/
def firstOf {S : Type} (l : List S) : Res S :=
  match l with
  | [] => .error .panic
  | x :: _ => .ok x

/-- `data[0] = value` at `audio_buffer.rs:140`. -/
def setFirst {S : Type} (value : S) : List S → Res (List S)
  | [] => .error .panic
  | _ :: rest => .ok (value :: rest)

/-- Changing the part `&mut l[start..stop]` of a slice with `f` (for example
`owned_audio_buffer.rs:200-203`). -/
def modifyRange {S : Type} (l : List S) (start stop : Nat) (f : List S → Res (List S)) :
    Res (List S) := do
  let part ← sliceRange l start stop
  let part ← f part
  return l.take start ++ part ++ l.drop stop

/-- The implementors of the trait `AudioBuffer`: `owned_audio_buffer.rs:10-15`,
`borrowed_audio_buffer.rs:8-11` and `mutable_borrowed_audio_buffer.rs:5-8` (`mutable` tells the last
two apart). -/
inductive Buf (S : Type) where
  | owned (data : List S) (channelCount frameCount sampleRate : Nat)
  | slice (parent : Buf S) (range : Range) (mutable : Bool)

namespace Buf

variable {S : Type}

/-- `owned_audio_buffer.rs:183-185`, `borrowed_audio_buffer.rs:60-62`,
`mutable_borrowed_audio_buffer.rs:57-59`. -/
def channelCount : Buf S → Nat
  | owned _ c _ _ => c
  | slice _ r _ => r.channelCount

/-- `owned_audio_buffer.rs:187-189`, `borrowed_audio_buffer.rs:64-66`,
`mutable_borrowed_audio_buffer.rs:61-63`. -/
def frameCount : Buf S → Nat
  | owned _ _ f _ => f
  | slice _ r _ => r.frameCount

/-- `owned_audio_buffer.rs:191-193`, `borrowed_audio_buffer.rs:68-70`,
`mutable_borrowed_audio_buffer.rs:65-67`. -/
def sampleRate : Buf S → Nat
  | owned _ _ _ r => r
  | slice p _ _ => p.sampleRate

/-- `OwnedAudioBuffer::new`, `owned_audio_buffer.rs:19-26`. -/
def new [Zero S] (frameCount channelCount sampleRate : Nat) : Buf S :=
  owned (List.replicate (frameCount * channelCount) 0) channelCount frameCount sampleRate

/-- `get_channel_data`: `owned_audio_buffer.rs:175-179,195-198`,
`borrowed_audio_buffer.rs:72-80`, `mutable_borrowed_audio_buffer.rs:69-77`.
`frame_count - frame` on a slice panics when it would be negative. -/
def channelData : Buf S → Loc → Res (List S)
  | owned data _ fc _, loc => sliceRange data (loc.channel * fc + loc.frame) ((loc.channel + 1) * fc)
  | slice p r _, loc => do
    let data ← p.channelData ((loc.offsetFrames r.frame).offsetChannels r.channel)
    if loc.frame ≤ r.frameCount then sliceRange data 0 (r.frameCount - loc.frame)
    else .error .panic

/-- `get_channel_data_mut` followed by a change `f` of the returned slice:
`owned_audio_buffer.rs:200-203`, `borrowed_audio_buffer.rs:82-84` (panics),
`mutable_borrowed_audio_buffer.rs:79-87`. -/
def modifyChannel : Buf S → Loc → (List S → Res (List S)) → Res (Buf S)
  | owned data c fc sr, loc, f => do
    let data ← modifyRange data (loc.channel * fc + loc.frame) ((loc.channel + 1) * fc) f
    return owned data c fc sr
  | slice p r true, loc, f => do
    let p ← p.modifyChannel ((loc.offsetFrames r.frame).offsetChannels r.channel)
      (fun data =>
        if loc.frame ≤ r.frameCount then modifyRange data 0 (r.frameCount - loc.frame) f
        else .error .panic)
    return slice p r true
  | slice _ _ false, _, _ => .error .panic

/-- `range_is_valid`, `audio_buffer.rs:86-96`. -/
def rangeIsValid (b : Buf S) (r : Range) : Bool :=
  if b.channelCount < r.channel + r.channelCount then false
  else if b.frameCount < r.frame + r.frameCount then false
  else true

/-- `BorrowedAudioBuffer::slice` / `MutableBorrowedAudioBuffer::slice`,
`borrowed_audio_buffer.rs:53-56`, `mutable_borrowed_audio_buffer.rs:50-53`. -/
def mkSlice (b : Buf S) (r : Range) (mutable : Bool) : Res (Buf S) :=
  if b.rangeIsValid r then .ok (slice b r mutable) else .error .panic

/-- `slice_frames`, `borrowed_audio_buffer.rs:15-25`, `mutable_borrowed_audio_buffer.rs:12-22`. -/
def sliceFrames (b : Buf S) (frameOffset frameCount : Nat) (mutable : Bool) : Res (Buf S) :=
  b.mkSlice ⟨0, frameOffset, b.channelCount, frameCount⟩ mutable

/-- `BorrowedAudioBuffer::slice_channels`, `borrowed_audio_buffer.rs:28-38`: note the order of the
last two arguments of `SampleRange::new` at line 36. -/
def sliceChannels (b : Buf S) (channelOffset channelCount : Nat) : Res (Buf S) :=
  b.mkSlice ⟨channelOffset, 0, b.frameCount, channelCount⟩ false

/-- `MutableBorrowedAudioBuffer::slice_channels`, `mutable_borrowed_audio_buffer.rs:25-35`. -/
def sliceChannelsMut (b : Buf S) (channelOffset channelCount : Nat) : Res (Buf S) :=
  b.mkSlice ⟨channelOffset, 0, channelCount, b.frameCount⟩ true

/-- `slice_channels_and_frames`, `borrowed_audio_buffer.rs:41-50`,
`mutable_borrowed_audio_buffer.rs:38-47`. -/
def sliceChannelsAndFrames (b : Buf S) (frameCount channelCount : Nat) (mutable : Bool) :
    Res (Buf S) :=
  b.mkSlice ⟨0, 0, channelCount, frameCount⟩ mutable

/-- `get_sample`, `audio_buffer.rs:150-153`. -/
def getSample (b : Buf S) (loc : Loc) : Res S := do
  let data ← b.channelData loc
  firstOf data

/-- `set_sample`, `audio_buffer.rs:138-141`. -/
def setSample (b : Buf S) (loc : Loc) (value : S) : Res (Buf S) :=
  b.modifyChannel loc (setFirst value)

/-- `add_sample`, `audio_buffer.rs:144-147`. -/
def addSample [Add S] (b : Buf S) (loc : Loc) (value : S) : Res (Buf S) := do
  let before ← b.getSample loc
  b.setSample loc (value + before)

/-- `fill_channel_with_value`, `audio_buffer.rs:110-113`. -/
def fillChannelWithValue (b : Buf S) (channel : Nat) (value : S) : Res (Buf S) :=
  b.modifyChannel (Loc.ofChannel channel) (fun data => .ok (data.map (fun _ => value)))

/-- `fill_with_value`, `audio_buffer.rs:116-120`. -/
def fillWithValue (b : Buf S) (value : S) : Res (Buf S) :=
  (List.range b.channelCount).foldlM (fun b c => b.fillChannelWithValue c value) b

/-- `clear`, `audio_buffer.rs:81-83`. -/
def clear [Zero S] (b : Buf S) : Res (Buf S) := b.fillWithValue 0

/-- Changing the first `n` samples, `&mut data[..n]`, of the channel data at a location, as in
`audio_buffer.rs:103-105,176-180,206-210,229-233,271-283`. -/
def modifyPart (b : Buf S) (loc : Loc) (n : Nat) (f : List S → List S) : Res (Buf S) :=
  b.modifyChannel loc (fun data => modifyRange data 0 n (fun part => .ok (f part)))

/-- `clear_range`, `audio_buffer.rs:99-107` (the `debug_assert!` is a no-op). -/
def clearRange [Zero S] (b : Buf S) (r : Range) : Res (Buf S) :=
  (List.range r.channelCount).foldlM
    (fun b c => b.modifyPart ⟨r.channel + c, r.frame⟩ r.frameCount (fun l => l.map (fun _ => 0))) b

/-- `copy_from`, `audio_buffer.rs:217-235`. -/
def copyFrom (dst src : Buf S) (srcLoc dstLoc : Loc) (channelCount frameCount : Nat) :
    Res (Buf S) :=
  (List.range channelCount).foldlM
    (fun dst c => do
      let source ← src.channelData (srcLoc.offsetChannels c)
      let source ← sliceRange source 0 frameCount
      dst.modifyPart (dstLoc.offsetChannels c) frameCount (fun _ => source)) dst

/-- `add_from`, `audio_buffer.rs:156-182`.  `al c` are the alignment-dependent prefix lengths of the
two slices used for channel `c` (see `Kernels.mixInto`). -/
def addFrom [Add S] (al : Nat → Nat × Nat) (dst src : Buf S) (srcLoc dstLoc : Loc)
    (channelCount frameCount : Nat) : Res (Buf S) :=
  if frameCount = 0 then .ok dst
  else if channelCount = 0 then .ok dst
  else
    (List.range channelCount).foldlM
      (fun dst c => do
        let source ← src.channelData (srcLoc.offsetChannels c)
        let source ← sliceRange source 0 frameCount
        dst.modifyPart (dstLoc.offsetChannels c) frameCount
          (fun destination => Kernels.mixInto (al c).1 (al c).2 source destination)) dst

/-- `add_from_with_gain`, `audio_buffer.rs:185-212`. -/
def addFromWithGain [Add S] [Mul S] (al : Nat → Nat × Nat) (dst src : Buf S) (srcLoc dstLoc : Loc)
    (channelCount frameCount : Nat) (gain : S) : Res (Buf S) :=
  if frameCount = 0 then .ok dst
  else if channelCount = 0 then .ok dst
  else
    (List.range channelCount).foldlM
      (fun dst c => do
        let source ← src.channelData (srcLoc.offsetChannels c)
        let source ← sliceRange source 0 frameCount
        dst.modifyPart (dstLoc.offsetChannels c) frameCount
          (fun destination => Kernels.mixIntoWithGain (al c).1 (al c).2 source destination gain)) dst

/-- `apply_gain_value`, `audio_buffer.rs:269-285`.  The loop over channels is left by `return` at
lines 276 and 280.  `isZero`, `isOne` are the `relative_eq!` tests. -/
def applyGainValueLoop [Zero S] [Mul S] (isZero isOne : S → Bool) (al : Nat → Nat)
    (r : Range) (gain : S) : List Nat → Buf S → Res (Buf S)
  | [], b => .ok b
  | c :: cs, b =>
    if isZero gain then
      b.modifyPart ⟨r.channel + c, r.frame⟩ r.frameCount (fun l => l.map (fun _ => 0))
    else if isOne gain then b.modifyPart ⟨r.channel + c, r.frame⟩ r.frameCount id
    else do
      let b ← b.modifyPart ⟨r.channel + c, r.frame⟩ r.frameCount
        (fun l => Kernels.multiplyByValue (al c) l gain)
      applyGainValueLoop isZero isOne al r gain cs b

/-- `apply_gain_value`, `audio_buffer.rs:269-285`. -/
def applyGainValue [Zero S] [Mul S] (isZero isOne : S → Bool) (al : Nat → Nat)
    (b : Buf S) (r : Range) (gain : S) : Res (Buf S) :=
  applyGainValueLoop isZero isOne al r gain (List.range r.channelCount) b

/-- `apply_gain`, `audio_buffer.rs:250-266`. -/
def applyGain [Zero S] [Mul S] (isZero isOne : S → Bool) (al : Nat → Nat × Nat)
    (b : Buf S) (gain : List S) : Res (Buf S) :=
  if gain.all isZero then b.clear
  else if gain.all isOne then .ok b
  else
    (List.range b.channelCount).foldlM
      (fun b c => b.modifyChannel (Loc.ofChannel c)
        (fun data => .ok (Kernels.multiply (al c).1 (al c).2 data gain))) b

/-- Index `l[i]` (for example `audio_buffer.rs:28`): panics when out of bounds. -/
def index (l : List S) (i : Nat) : Res S :=
  match l[i]? with
  | some x => .ok x
  | none => .error .panic

/-- Assignment `l[i] = x` (for example `audio_buffer.rs:30,56`): panics when out of bounds. -/
def assign (l : List S) (i : Nat) (x : S) : Res (List S) :=
  if i < l.length then .ok (l.set i x) else .error .panic

/-- `fill_from_interleaved`, `audio_buffer.rs:12-33`.  Note that after line 21 the stride at line
27 is the smaller of the two channel counts. -/
def fillFromInterleaved (b : Buf S) (interleaved : List S) (channelCount frameCount : Nat) :
    Res (Buf S) :=
  let frameCount := min frameCount b.frameCount
  let channelCount := min channelCount b.channelCount
  (List.range channelCount).foldlM
    (fun b c => b.modifyChannel (Loc.ofChannel c) (fun data =>
      (List.range frameCount).foldlM
        (fun data f => do
          let v ← index interleaved (f * channelCount + c)
          assign data f v) data)) b

/-- `copy_to_interleaved`, `audio_buffer.rs:38-59`. -/
def copyToInterleaved (b : Buf S) (interleaved : List S) (channelCount frameCount : Nat) :
    Res (List S) :=
  let channelCount := min channelCount b.channelCount
  let frameCount := min frameCount b.frameCount
  (List.range channelCount).foldlM
    (fun out c => do
      let data ← b.channelData (Loc.ofChannel c)
      (List.range frameCount).foldlM
        (fun out f => do
          let v ← index data f
          assign out (f * channelCount + c) v) out) interleaved

/-- `fill_from_slice`, `audio_buffer.rs:345-348`: `copy_from_slice` panics unless the lengths are
equal. -/
def fillFromSlice (b : Buf S) (audio : List S) (loc : Loc) : Res (Buf S) :=
  b.modifyChannel loc (fun data =>
    if data.length = audio.length then .ok audio else .error .panic)

/-- `OwnedAudioBuffer::from_slice`, `owned_audio_buffer.rs:31-39`.  Note the channel count 1 at
line 32. -/
def fromSlice [Zero S] (data : List S) (channelCount sampleRate : Nat) : Res (Buf S) :=
  (List.range channelCount).foldlM (fun b c => b.fillFromSlice data (Loc.ofChannel c))
    (new data.length 1 sampleRate)

/-- `OwnedAudioBuffer::from_buffer`, `owned_audio_buffer.rs:42-58`. -/
def fromBuffer [Zero S] (b : Buf S) : Res (Buf S) :=
  (new b.frameCount b.channelCount b.sampleRate).copyFrom b Loc.origin Loc.origin
    b.channelCount b.frameCount

/-- `extended_with_buffer`, `owned_audio_buffer.rs:63-90`. -/
def extendedWithBuffer [Zero S] (self b : Buf S) : Res (Buf S) :=
  if b.channelCount = self.channelCount ∧ b.sampleRate = self.sampleRate then do
    let n := new (self.frameCount + b.frameCount) self.channelCount self.sampleRate
    let n ← n.copyFrom self Loc.origin Loc.origin self.channelCount self.frameCount
    n.copyFrom b Loc.origin (Loc.ofFrame self.frameCount) b.channelCount b.frameCount
  else .error .panic

/-- `padded_to_length`, `owned_audio_buffer.rs:107-119`. -/
def paddedToLength [Zero S] (self : Buf S) (frameCount : Nat) : Res (Buf S) :=
  (new frameCount self.channelCount self.sampleRate).copyFrom self Loc.origin Loc.origin
    self.channelCount self.frameCount

/-- `slice::copy_within(src_start..src_start + n, dest)`, used at `owned_audio_buffer.rs:208-211`
and `audio_buffer.rs:241`: panics when either range leaves the slice. -/
def copyWithinList (l : List S) (srcStart n dest : Nat) : Res (List S) :=
  if srcStart + n ≤ l.length ∧ dest + n ≤ l.length then
    .ok (l.take dest ++ (l.drop srcStart).take n ++ l.drop (dest + n))
  else .error .panic

/-- `duplicate_channel`, `owned_audio_buffer.rs:205-212`, `borrowed_audio_buffer.rs:86-93` (panics),
`mutable_borrowed_audio_buffer.rs:89-97`. -/
def duplicateChannel : Buf S → Loc → Nat → Nat → Res (Buf S)
  | owned data c fc sr, source, toChannel, n => do
    let data ← copyWithinList data (source.channel * fc + source.frame) n
      (toChannel * fc + source.frame)
    return owned data c fc sr
  | slice p r true, source, toChannel, n => do
    let p ← p.duplicateChannel ((source.offsetFrames r.frame).offsetChannels r.channel)
      (toChannel + r.channel) n
    return slice p r true
  | slice _ _ false, _, _, _ => .error .panic

/-- `copy_within`, `audio_buffer.rs:238-243`. -/
def copyWithin (b : Buf S) (r : Range) (destinationFrame : Nat) : Res (Buf S) :=
  (List.range r.channelCount).foldlM
    (fun b c => b.modifyChannel (Loc.ofChannel (r.channel + c))
      (fun data => copyWithinList data r.frame r.frameCount destinationFrame)) b

/-- `channel_is_silent`, `audio_buffer.rs:125-129`; `isZero` is the comparison with `0.0`. -/
def channelIsSilent (isZero : S → Bool) (b : Buf S) (channel : Nat) : Res Bool := do
  let data ← b.channelData (Loc.ofChannel channel)
  return data.all isZero

end Buf

/-- `FrameIterator`, `audio_buffer.rs:351-356`. -/
structure FrameIter where
  channel : Nat
  frame : Nat
  channelCount : Nat
  frameCount : Nat

/-- `frame_iter`, `audio_buffer.rs:291-298`. -/
def Buf.frameIter {S : Type} (b : Buf S) : FrameIter := ⟨0, 0, b.channelCount, b.frameCount⟩

/-- `FrameIterator::next`, `audio_buffer.rs:361-376`. -/
def FrameIter.next (it : FrameIter) : Option Loc × FrameIter :=
  let location :=
    if it.channel < it.channelCount ∧ it.frame < it.frameCount then some ⟨it.channel, it.frame⟩
    else none
  let it := { it with frame := it.frame + 1 }
  let it := if it.frameCount ≤ it.frame then { it with channel := it.channel + 1, frame := 0 } else it
  (location, it)

/-- Iterating (`for frame in buffer.frame_iter()`, `owned_audio_buffer.rs:98`): take locations until
the first `None`; `fuel` bounds the number of steps, `none` means that it ran out. -/
def FrameIter.collect : Nat → FrameIter → Option (List Loc)
  | 0, _ => none
  | fuel + 1, it =>
    match it.next with
    | (none, _) => some []
    | (some l, it) => (FrameIter.collect fuel it).map (l :: ·)

end Rawdio
