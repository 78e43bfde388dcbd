import Verif.Model.Grid

/-!
# `effects/sampler/sampler_fade.rs` and `effects/sampler/sampler_voice.rs`

Samples and fade gains are elements of an arbitrary type `S`; no law of arithmetic is assumed.
-/

namespace Rawdio

/-- `effects/sampler/sampler_fade.rs:3-5`. -/
structure Fade (S : Type) where
  values : List S

namespace Fade

variable {S : Type}

/-- `effects/sampler/sampler_fade.rs:27-29`. -/
def len (f : Fade S) : Nat := f.values.length

/-- `effects/sampler/sampler_fade.rs:31-36`. -/
def value [One S] (f : Fade S) (position : Nat) : S := (f.values[position]?).getD 1

/-- `effects/sampler/sampler_fade.rs:38-40`. -/
def fadeInValue [One S] (f : Fade S) (position : Nat) : S := f.value position

/-- `effects/sampler/sampler_fade.rs:42-44`; the subtraction panics when negative. -/
def fadeOutValue [One S] (f : Fade S) (position : Nat) : Res S :=
  if f.len < position then .error .panic else .ok (f.value (f.len - position))

end Fade

/-- `effects/sampler/sampler_voice.rs:8-13`. -/
inductive Phase where
  | stopped
  | fadingIn (fadePosition : Nat)
  | playing
  | fadingOut (fadePosition : Nat)
  deriving DecidableEq

/-- `effects/sampler/sampler_voice.rs:22-25`. -/
structure Voice where
  position : Nat
  phase : Phase
  deriving DecidableEq

namespace Voice

variable {S : Type}

/-- `Voice::default()`, `effects/sampler/sampler_voice.rs:15-25`. -/
def default : Voice := ⟨0, .stopped⟩

/-- `effects/sampler/sampler_voice.rs:28-30`. -/
def isStopped (v : Voice) : Bool := v.phase == .stopped

/-- `effects/sampler/sampler_voice.rs:32-38`. -/
def startFromPosition (position : Nat) : Voice :=
  ⟨position, if position = 0 then .playing else .fadingIn 0⟩

/-- `effects/sampler/sampler_voice.rs:44-51`. -/
def stop (v : Voice) : Voice :=
  match v.phase with
  | .stopped => v
  | .fadingIn _ => { v with phase := .fadingOut 0 }
  | .playing => { v with phase := .fadingOut 0 }
  | .fadingOut _ => v

/-- `render_playing`, `effects/sampler/sampler_voice.rs:114-141`. -/
def renderPlaying [Add S] (v : Voice) (out : Grid S) (w : Window) (destinationOffset : Nat)
    (source : Grid S) : Res (Grid S) :=
  let channelCount := min source.channels out.channels
  if source.frames ≤ v.position then .ok out
  else
    let frameCount := min (w.count - destinationOffset) (source.frames - v.position)
    out.addFrom w source v.position destinationOffset channelCount frameCount

/-- The gain of a frame of a fade, `effects/sampler/sampler_voice.rs:164-168`. -/
def fadeGain [One S] (fade : Fade S) (fadeIn : Bool) (position : Nat) : Res S :=
  if fadeIn then .ok (fade.fadeInValue position) else fade.fadeOutValue position

/-- One sample of a fade, `effects/sampler/sampler_voice.rs:171-183`. -/
def fadeSample [Add S] [Mul S] (v : Voice) (w : Window) (destinationOffset : Nat) (source : Grid S)
    (gain : S) (frame : Nat) (out : Grid S) (channel : Nat) : Res (Grid S) := do
  let o ← out.get w channel (destinationOffset + frame)
  let s ← source.get source.all channel (v.position + frame)
  out.set w channel (destinationOffset + frame) (o + gain * s)

/-- The loop over the frames of a fade, `effects/sampler/sampler_voice.rs:159-185`: `count` frames
from `frame` on. -/
def fadeFrames [Add S] [Mul S] [One S] (v : Voice) (w : Window) (destinationOffset : Nat)
    (source : Grid S) (fade : Fade S) (fadePosition : Nat) (fadeIn : Bool) :
    Nat → Nat → Grid S → Res (Grid S)
  | 0, _, out => .ok out
  | count + 1, frame, out =>
    if source.frames ≤ frame + v.position then .ok out
    else do
      let gain ← fadeGain fade fadeIn (fadePosition + frame)
      let out ← (List.range (min source.channels out.channels)).foldlM
        (fadeSample v w destinationOffset source gain frame) out
      fadeFrames v w destinationOffset source fade fadePosition fadeIn count (frame + 1) out

/-- The number of frames of a fade rendered at once, `effects/sampler/sampler_voice.rs:154-157`. -/
def fadeCount (fade : Fade S) (fadePosition : Nat) (w : Window) (destinationOffset : Nat) : Nat :=
  min (fade.len - fadePosition) (w.count - destinationOffset)

/-- `render_fade`, `effects/sampler/sampler_voice.rs:143-188`; `fade.len() - fade_position` panics when
negative.  The other result, the number of frames, is `fadeCount`. -/
def renderFade [Add S] [Mul S] [One S] (v : Voice) (out : Grid S) (w : Window) (destinationOffset : Nat)
    (source : Grid S) (fade : Fade S) (fadePosition : Nat) (fadeIn : Bool) : Res (Grid S) :=
  if fade.len < fadePosition then .error .panic
  else fadeFrames v w destinationOffset source fade fadePosition fadeIn
    (fadeCount fade fadePosition w destinationOffset) 0 out

/-- How far a phase is from the end, for the termination of `renderLoop` only; no counterpart in
`effects/sampler/sampler_voice.rs`. -/
def rank : Phase → Nat
  | .stopped => 0
  | .fadingIn _ => 2
  | .playing => 1
  | .fadingOut _ => 1

/-- The loop of `render`, `effects/sampler/sampler_voice.rs:60-111`. -/
def renderLoop [Add S] [Mul S] [One S] (source : Grid S) (fade : Fade S) (w : Window)
    (destinationOffset : Nat) (v : Voice) (out : Grid S) : Res (Voice × Grid S) :=
  if _h : destinationOffset < w.count then
    match _hp : v.phase with
    | .stopped => .ok (v, out)
    | .fadingIn fadePosition => do
      let out ← renderFade v out w destinationOffset source fade fadePosition true
      let n := fadeCount fade fadePosition w destinationOffset
      if fadePosition + n < fade.len then
        renderLoop source fade w (destinationOffset + n)
          ⟨v.position + n, .fadingIn (fadePosition + n)⟩ out
      else renderLoop source fade w (destinationOffset + n) ⟨v.position + n, .playing⟩ out
    | .playing => do
      let out ← renderPlaying v out w destinationOffset source
      renderLoop source fade w w.count ⟨v.position + (w.count - destinationOffset), .playing⟩ out
    | .fadingOut fadePosition => do
      let out ← renderFade v out w destinationOffset source fade fadePosition false
      let n := fadeCount fade fadePosition w destinationOffset
      if fadePosition + n < fade.len then
        renderLoop source fade w (destinationOffset + n)
          ⟨v.position + n, .fadingOut (fadePosition + n)⟩ out
      else renderLoop source fade w (destinationOffset + n) ⟨v.position + n, .stopped⟩ out
  else .ok (v, out)
termination_by (w.count - destinationOffset, rank v.phase)
decreasing_by
  all_goals simp_wf
  all_goals simp only [_hp, rank, fadeCount] at *
  all_goals simp only [Prod.lex_def]
  all_goals omega

/-- `render`, `effects/sampler/sampler_voice.rs:53-112`. -/
def render [Add S] [Mul S] [One S] (v : Voice) (out : Grid S) (w : Window) (source : Grid S)
    (fade : Fade S) : Res (Voice × Grid S) :=
  if v.isStopped then .ok (v, out) else renderLoop source fade w 0 v out

end Voice
end Rawdio
