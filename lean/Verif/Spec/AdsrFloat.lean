import Verif.Model.AdsrFloat
import Verif.Spec.FollowerFloat
import Verif.Spec.ParameterFloat

/-! What is said about ADSR envelopes in the arithmetic of `f64`. -/

namespace Rawdio

/-- A logarithm that is not positive for numbers up to 1, and an exponential function that for numbers up to 0 is between
0 and 1, as those of all usual libraries. -/
structure Contracting (ln exp : ℚ → ℚ) : Prop where
  ln : ∀ x, 0 < x → x ≤ 1 → ln x ≤ 0
  exp : ∀ x, x ≤ 0 → 0 ≤ exp x ∧ exp x ≤ 1

/-- What is done with an envelope. -/
inductive Adsr64Action
  | noteOn
  | noteOff
  | setAttack (nanoseconds : Nat)
  | setDecay (nanoseconds : Nat)
  | setSustain (level : ℚ)
  | setRelease (nanoseconds : Nat)
  | frame

/-- What an envelope is set to, with times in nanoseconds. -/
structure Adsr64Settings where
  attack : Nat
  decay : Nat
  sustain : ℚ
  release : Nat

/-- What an action sets. -/
def Adsr64Settings.act (s : Adsr64Settings) : Adsr64Action → Adsr64Settings
  | .setAttack t => { s with attack := t }
  | .setDecay t => { s with decay := t }
  | .setSustain l => { s with sustain := l }
  | .setRelease t => { s with release := t }
  | _ => s

namespace Adsr64

/-- One action. -/
def act (ln exp : ℚ → ℚ) (e : Adsr64) : Adsr64Action → Adsr64
  | .noteOn => e.opened
  | .noteOff => e.closed
  | .setAttack t => e.setAttack ln exp t
  | .setDecay t => e.setDecay ln exp t
  | .setSustain l => e.setSustain ln exp l
  | .setRelease t => e.setRelease ln exp t
  | .frame => e.process

/-- An envelope after a history. -/
def after (ln exp : ℚ → ℚ) (sampleRate : Nat) (s : Adsr64Settings) (as : List Adsr64Action) : Adsr64 :=
  as.foldl (act ln exp) (new ln exp sampleRate s.attack s.decay s.sustain s.release)

/-- An envelope after a number of frames. -/
def frames (e : Adsr64) : Nat → Adsr64
  | 0 => e
  | n + 1 => (frames e n).process

end Adsr64
end Rawdio
