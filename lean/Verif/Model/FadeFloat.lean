import Verif.Model.Voice
import Verif.Model.GainFloat

/-!
# The crossfade of the sampler with `f32` samples

When a sampler loops or is started again, one voice fades out while another fades in.  Here is one frame of one channel
of the two, with the sums and products rounded as the program rounds them.  Which frames of the sample the voices are at
is in `Model/Voice.lean` and `Model/Sampler.lean`.  NaN, infinities and the sign of zero are not modelled.
-/

namespace Rawdio
namespace Fade

/-- One frame of a voice that fades in, `effects/sampler/sampler_voice.rs:164-166,181-183`. -/
def addIn (fade : Fade Sample32) (position : Nat) (output sample : Sample32) : Sample32 :=
  output + fade.fadeInValue position * sample

/-- One frame of a voice that fades out, `effects/sampler/sampler_voice.rs:166-168,181-183`. -/
def addOut (fade : Fade Sample32) (position : Nat) (output sample : Sample32) : Res Sample32 := do
  let value ← fade.fadeOutValue position
  return output + value * sample

/-- A frame of silence to which the voice that fades out and the one that fades in are added, at the same position of
their fades, `effects/sampler/sampler_voice.rs:159-186`; `inFirst` says which comes first among the voices. -/
def crossfade (fade : Fade Sample32) (inFirst : Bool) (position : Nat) (old new : Sample32) : Res Sample32 :=
  if inFirst then fade.addOut position (fade.addIn position 0 new) old
  else do
    let output ← fade.addOut position 0 old
    return fade.addIn position output new

end Fade
end Rawdio
