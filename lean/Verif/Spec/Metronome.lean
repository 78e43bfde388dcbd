import Verif.Model.Metronome

/-!
# Specification of a metronome

Where the beats of a tempo are, and how they sound. Independent of the intervals in which they are scheduled.
-/

namespace Rawdio
namespace Metronome

/-- Where beat `k` is, in units of 2⁻³² s, before rounding. -/
def place (tempo : ℚ) (k : ℕ) : ℚ := k * (60 / tempo) * 2 ^ 32

/-- Beat `k`: one in four is high. -/
def beat (tempo : ℚ) (k : ℕ) : Beat := ⟨if 4 ∣ k then 880 else 440, Timestamp.roundHalfEven (place tempo k)⟩

/-- The end of what has been scheduled when the time was `now`: 33.333334 ms later. -/
def horizon (now : Int) : Int := now + Timestamp.fromSeconds (33333334 / 10 ^ 9)

/-- The numbers of the beats that are scheduled: each once, in order, and just those with a property. -/
def Just (tempo : ℚ) (bs : List Beat) (p : ℕ → Prop) : Prop :=
  ∃ ks : List ℕ, bs = ks.map (beat tempo) ∧ ks.Pairwise (· < ·) ∧ ∀ k, k ∈ ks ↔ p k

end Metronome
end Rawdio
