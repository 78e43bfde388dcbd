import Mathlib.Analysis.SpecialFunctions.Exp
import Verif.Model.FollowerFloat

/-! What is said about envelope followers in the arithmetic of `f32`. -/

namespace Rawdio

/-- An exponential function that is not negative and has, for numbers up to 0, a relative error of at most 2^-50 or an
error of at most 2^-1000; those of the usual libraries are better. -/
def AccurateDecay (exp : ℚ → ℚ) : Prop :=
  ∀ x : ℚ, x ≤ 0 → 0 ≤ exp x ∧ |(exp x : ℝ) - Real.exp x| ≤ Real.exp x * (1 / 2 ^ 50) + 1 / 2 ^ 1000

/-- A time in nanoseconds as a number of samples, exactly. -/
def timeSamples (sampleRate time : Nat) : ℚ := sampleRate * time / 10 ^ 9

/-- What is done with an envelope follower. -/
inductive FollowerAction32
  | attack (nanoseconds : Nat)
  | release (nanoseconds : Nat)
  | sample (x : ℚ)

namespace Follower32

/-- One action. -/
def act (exp : ℚ → ℚ) (e : Follower32) : FollowerAction32 → Follower32
  | .attack t => e.setAttackTime exp t
  | .release t => e.setReleaseTime exp t
  | .sample x => (e.process x).1

/-- A follower after a history. -/
def after (exp : ℚ → ℚ) (sampleRate attack release : Nat) (as : List FollowerAction32) : Follower32 :=
  as.foldl (act exp) (new exp sampleRate attack release)

/-- A follower after the same sample `n` times. -/
def steady (e : Follower32) (x : ℚ) : Nat → Follower32
  | 0 => e
  | n + 1 => ((steady e x n).process x).1

end Follower32
end Rawdio
