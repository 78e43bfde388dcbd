import Verif.Spec.Sampler

/-!
# Specification of a sampler that loops
-/

namespace Rawdio
namespace Sampler

variable {S : Type}

/-- A frame of a sample; past its end and outside its channels there is silence. -/
def sampleFrame [Zero S] (sample : Grid S) (c f : Nat) : S :=
  if c < sample.channels ∧ f < sample.frames then sample.val c f else 0

/-- The level `j` frames after the sampler went back to frame `a`: at the beginning of the sample it is full at once,
elsewhere it follows the fade. -/
def levelIn [One S] (fade : Fade S) (a j : Nat) : S := if a = 0 then 1 else (fade.values[j]?).getD 1

/-- The level of what was playing, `j` frames after the sampler went back: it follows the fade backwards. -/
def levelOut [Zero S] [One S] (fade : Fade S) (j : Nat) : S :=
  if j < fade.values.length then (fade.values[fade.values.length - j]?).getD 1 else 0

/-- What a sampler plays that was started at the beginning of its sample and loops from frame `a` to frame `b`: the
sample up to the end of the loop, and from there on the loop again and again.  At the end of the loop what was playing
plays on into the rest of the sample while it fades out. -/
def looped [Zero S] [One S] [Add S] [Mul S] (fade : Fade S) (sample : Grid S) (a b c F : Nat) : S :=
  if F < b then sampleFrame sample c F
  else levelIn fade a ((F - b) % (b - a)) * sampleFrame sample c (a + (F - b) % (b - a)) +
    levelOut fade ((F - b) % (b - a)) * sampleFrame sample c (b + (F - b) % (b - a))

/-- The outputs when a signal is added, from its frame `F` on. -/
def addedFrom [Add S] (x : Nat → Nat → S) : Nat → List (SamplerBlock S) → List (Grid S)
  | _, [] => []
  | F, b :: bs =>
    { b.out with
      val := fun c f => if c < b.out.channels ∧ f < b.out.frames then b.out.val c f + x c (F + f) else b.out.val c f } ::
      addedFrom x (F + b.out.frames) bs

/-- The frames of some blocks. -/
def framesOf (bs : List (SamplerBlock S)) : Nat := (bs.map fun b => b.out.frames).sum

end Sampler
end Rawdio
