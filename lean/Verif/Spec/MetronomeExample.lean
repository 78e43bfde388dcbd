import Verif.Model.MetronomeExample
import Verif.Spec.Clicks
import Verif.Spec.Metronome
import Verif.Spec.RowExamples

/-!
# Specification of what a metronome plays
-/

namespace Rawdio
namespace Metronome

/-- Until when beats have been scheduled after turns of the loop at some times. -/
def reached (times : List Int) : Int := (times.map horizon).getLastD 0

/-- The numbers of the beats that are scheduled in turns of the loop at some times, in order: those before the end, except
those that come just before the end of an interval and are rounded to it (C92). -/
structure Scheduled (tempo : ℚ) (times : List Int) (ns : List ℕ) : Prop where
  order : ns.Pairwise (· < ·)
  which : ∀ k, k ∈ ns ↔ (beat tempo k).time < reached times ∧
    ∀ t ∈ times, (beat tempo k).time = horizon t → (horizon t : ℚ) ≤ place tempo k

/-- How high a tone is that starts with `low` and takes the frequency of a beat within two frames of its start, if the beats
with numbers `ns` start at `frames`. -/
structure Pitches (tuning : ℚ → ℝ) (tempo : ℚ) (frequency : ℕ → ℝ) (total : ℕ) (ns frames : List ℕ) : Prop where
  before : ∀ F < total, (∀ g ∈ frames.head?, F < g) → frequency F = tuning 440
  within : ∀ j k g F, ns[j]? = some k → frames[j]? = some g → g + 2 ≤ F → F < total →
    (∀ b, frames[j + 1]? = some b → F < b) → frequency F = tuning (beat tempo k).frequency

end Metronome
end Rawdio
