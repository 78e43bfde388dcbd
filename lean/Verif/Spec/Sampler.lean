import Verif.Model.Sampler

/-! # Specification of what a sampler voice sounds like -/

namespace Rawdio

/-- What a voice contributes to one frame of the output: nothing, a frame of the sample, or a frame of
the sample with a gain. -/
inductive Heard (S : Type) where
  | silent
  | plain (frame : Nat)
  | faded (gain : S) (frame : Nat)

namespace Heard

variable {S : Type}

/-- The output sample of channel `c` with a contribution added to it. Past the end and outside the
channels of the sample nothing is added. -/
def mix [Add S] [Mul S] (sample : Grid S) (c : Nat) : Heard S → S → S
  | silent, o => o
  | plain f, o => if c < sample.channels ∧ f < sample.frames then o + sample.val c f else o
  | faded g f, o => if c < sample.channels ∧ f < sample.frames then o + g * sample.val c f else o

end Heard

namespace Voice

variable {S : Type}

/-- What a voice contributes `i` frames from now. A voice that fades in does so along the fade and then
plays on; a voice that fades out goes through the fade backwards, from full level, and is then silent. -/
def heard [One S] (fade : Fade S) (v : Voice) (i : Nat) : Heard S :=
  match v.phase with
  | .stopped => .silent
  | .playing => .plain (v.position + i)
  | .fadingIn k =>
    if k + i < fade.values.length then .faded (fade.values[k + i]?.getD 1) (v.position + i)
    else .plain (v.position + i)
  | .fadingOut k =>
    if k + i < fade.values.length then
      .faded (fade.values[fade.values.length - (k + i)]?.getD 1) (v.position + i)
    else .silent

/-- The state of a voice after `i` frames. -/
def after (fade : Fade S) (v : Voice) (i : Nat) : Voice :=
  match v.phase with
  | .stopped => v
  | .playing => ⟨v.position + i, .playing⟩
  | .fadingIn k =>
    ⟨v.position + i, if k + i < fade.values.length then .fadingIn (k + i) else .playing⟩
  | .fadingOut k =>
    if k + i < fade.values.length then ⟨v.position + i, .fadingOut (k + i)⟩
    else ⟨v.position + (fade.values.length - k), .stopped⟩

/-- A fade that has been begun has not ended. -/
def Ok (fade : Fade S) (v : Voice) : Prop :=
  match v.phase with
  | .stopped => True
  | .playing => True
  | .fadingIn k => k < fade.values.length
  | .fadingOut k => k < fade.values.length

/-- A voice that is silent or on its way to it. -/
def Ending (v : Voice) : Prop := v.phase = .stopped ∨ ∃ k, v.phase = .fadingOut k

end Voice

/-- The frames of a window with something done to each sample; `change c i` is applied to frame `i` of the
window. -/
def Grid.changed {S : Type} (g : Grid S) (w : Window) (change : Nat → Nat → S → S) : Grid S where
  channels := g.channels
  frames := g.frames
  val := fun c f =>
    if c < g.channels ∧ w.offset ≤ f ∧ f < w.offset + w.count then change c (f - w.offset) (g.val c f)
    else g.val c f

/-- Several voices, one after the other. -/
def mixVoices {S : Type} [Add S] [Mul S] [One S] (fade : Fade S) (sample : Grid S) (voices : List Voice)
    (c i : Nat) (o : S) : S :=
  voices.foldl (fun o v => (v.heard fade i).mix sample c o) o

end Rawdio

namespace Rawdio

/-- A block of a sampler's history: the events sent since the last one, the time of the block and what is
in the output buffer before. -/
structure SamplerBlock (S : Type) where
  sent : List SamplerEvent
  start : Int
  out : Grid S

namespace Sampler

variable {S : Type}

/-- Sending several events. -/
def sendAll (s : Sampler S) (es : List SamplerEvent) : Sampler S := es.foldl send s

/-- A history of blocks, with the output buffers of each. -/
def run [Add S] [Mul S] [One S] (fuel : Nat) :
    Sampler S → List (SamplerBlock S) → Res (Sampler S × List (Grid S))
  | s, [] => .ok (s, [])
  | s, b :: bs => do
    let (s, out) ← (s.sendAll b.sent).processAudio fuel b.out b.start
    let (s, outs) ← run fuel s bs
    .ok (s, out :: outs)

/-- Blocks have a frame at least and are at most 2^33 divided by the sample rate long (178956 frames at
48 kHz). -/
def BlocksOk (sr : Nat) (bs : List (SamplerBlock S)) : Prop :=
  ∀ b ∈ bs, 0 < b.out.frames ∧ b.out.frames * sr ≤ 2 ^ 33

end Sampler
end Rawdio

namespace Rawdio

/-- A voice that plays or fades in. -/
def Voice.Sounding (v : Voice) : Prop := v.phase = .playing ∨ ∃ k, v.phase = .fadingIn k

/-- An event that starts nothing and sets no loop points. -/
def SamplerEvent.Quieting (e : SamplerEvent) : Prop :=
  e.eventType = .stop ∨ e.eventType = .cancelLoop ∨ e.eventType = .cancelAll

namespace Sampler

variable {S : Type}

/-- From frame `m` on, counted from the first frame of the first block, the outputs are what was there
before. -/
def SilentFrom : Nat → List (SamplerBlock S) → List (Grid S) → Prop
  | _, [], [] => True
  | m, b :: bs, o :: os =>
    (o.channels = b.out.channels ∧ o.frames = b.out.frames ∧
      ∀ c f, m ≤ f → o.val c f = b.out.val c f) ∧ SilentFrom (m - b.out.frames) bs os
  | _, _, _ => False

/-- The outputs when the sample is added from its frame `p` on, once. -/
def playedFrom [Add S] (sample : Grid S) : Nat → List (SamplerBlock S) → List (Grid S)
  | _, [] => []
  | p, b :: bs =>
    { b.out with
      val := fun c f =>
        if c < b.out.channels ∧ c < sample.channels ∧ f < b.out.frames ∧ p + f < sample.frames
        then b.out.val c f + sample.val c (p + f) else b.out.val c f } ::
      playedFrom sample (p + b.out.frames) bs

/-- The outputs when the sample is added once, its first frame at frame `M`; the first frame of the blocks is
frame `F`. -/
def startedAt [Add S] (sample : Grid S) (M : Nat) : Nat → List (SamplerBlock S) → List (Grid S)
  | _, [] => []
  | F, b :: bs =>
    { b.out with
      val := fun c f =>
        if c < b.out.channels ∧ c < sample.channels ∧ f < b.out.frames ∧ M ≤ F + f ∧ F + f - M < sample.frames
        then b.out.val c f + sample.val c (F + f - M) else b.out.val c f } ::
      startedAt sample M (F + b.out.frames) bs

end Sampler
end Rawdio
