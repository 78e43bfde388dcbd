import Verif.Model.GainFloat

/-!
# Sample rate conversion with `f32` positions and samples

`sample_rate_convert_from` of `buffer/audio_buffer.rs:306-342` with every operation rounded as the program rounds it.
`Model/Waveshaper.lean` has it over exact reals.  Infinities, NaN and the sign of zero are not modelled; sample rates are
positive.
-/

namespace Rawdio
namespace Convert32

/-- `ratio`, `buffer/audio_buffer.rs:313`: both rates are converted to `f32` and the quotient is rounded. -/
def ratio (sourceRate rate : Nat) : ℚ := Float32.round (Float32.round sourceRate / Float32.round rate)

/-- `source_index`, `buffer/audio_buffer.rs:325`: the index is converted to `f32` and the product is rounded. -/
def position (ratio : ℚ) (i : Nat) : ℚ := Float32.round (Float32.round i * ratio)

/-- `source_index - source_index.floor()`, `buffer/audio_buffer.rs:337`. -/
def amount (x : ℚ) : Sample32 := ⟨Float32.round (x - ⌊x⌋₊), Sample32.rep_round _⟩

/-- `1.0_f32 - sample_after_amount`, `buffer/audio_buffer.rs:338`. -/
def oneMinus (t : Sample32) : Sample32 := ⟨Float32.round (1 - t.1), Sample32.rep_round _⟩

/-- Lines 338 and 339 of `buffer/audio_buffer.rs`. -/
def interpolate (t before after : Sample32) : Sample32 :=
  oneMinus t * before + t * after

/-- One converted sample, `buffer/audio_buffer.rs:324-340`.  `source_data.len() - 1` at line 327 is out of range for an
empty source (with wrapping arithmetic the read at line 334 is).  The assignment at line 331 is overwritten at line
338. -/
def convertSample (source : List Sample32) (ratio : ℚ) (i : Nat) : Res Sample32 := do
  if source.length = 0 then throw .panic
  let x := position ratio i
  let before ← Buf.index source (min ⌊x⌋₊ (source.length - 1))
  let after ← Buf.index source (min ⌈x⌉₊ (source.length - 1))
  return interpolate (amount x) before after

/-- `sample_rate_convert_from`, `buffer/audio_buffer.rs:306-342`. -/
def convertFrom (dst src : Buf Sample32) (srcLoc dstLoc : Loc) (channelCount : Nat) : Res (Buf Sample32) :=
  (List.range channelCount).foldlM (fun (dst' : Buf Sample32) k => do
    let source ← src.channelData (srcLoc.offsetChannels k)
    dst'.modifyChannel (dstLoc.offsetChannels k) (fun data =>
      (List.range data.length).mapM (convertSample source (ratio src.sampleRate dst.sampleRate)))) dst

end Convert32
end Rawdio
