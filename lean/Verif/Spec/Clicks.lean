import Verif.Spec.AdsrSchedule

/-!
# Specification of clicks

An ADSR envelope with sustain level 0 whose notes are started again and again and never ended, and a parameter that is set
again and again. The requests are made during the session. Nothing is said about blocks.
-/

namespace Rawdio
namespace Clicks

/-- A request for the time `time` that is made when `first` frames have been rendered. -/
structure Timed (α : Type) where
  first : ℕ
  time : Int
  what : α

/-- Requests with their times, those before each call, with the number of frames rendered before it. -/
def requested {α S P C : Type} (xs : ℕ → List (Int × α)) (ks : List (Call S P C)) : List (Timed α) :=
  (List.range ks.length).flatMap fun j => (xs j).map fun x => ⟨framesIn (ks.take j), x.1, x.2⟩

/-- When the request is due, in units of 2⁻³² s: at its time, but not before it is made. -/
def Timed.due {α : Type} (sampleRate : ℕ) (x : Timed α) : ℚ := max (x.time : ℚ) (x.first / sampleRate * 2 ^ 32)

/-- Requests that are made in the order in which they are due, at least `frames` frames apart. -/
def Spaced {α : Type} (sampleRate frames : ℕ) (xs : List (Timed α)) : Prop :=
  xs.Pairwise fun x y => x.first ≤ y.first ∧ x.due sampleRate + (frames : ℚ) / sampleRate * 2 ^ 32 ≤ y.due sampleRate

/-- The gains of a click that starts at frame `a`, up to frame `c`: a rise from 0 to 1 in `A` frames, a fall to 0 in `D`
frames, and 0 from then on. -/
structure Shape (gain : ℕ → ℝ) (A D a c : ℕ) : Prop where
  rise : ∀ F, a ≤ F → F + 1 < a + A → 0 < gain F ∧ gain F < gain (F + 1)
  top : gain (a + A - 1) = 1
  fall : ∀ F, a + A ≤ F + 1 → F + 1 < a + A + D → gain (F + 1) < gain F ∧ 0 < gain F
  silence : ∀ F, a + A + D ≤ F + 1 → F < c → gain F = 0

/-- The gains of clicks that start at some frames. -/
def Shapes (gain : ℕ → ℝ) (A D : ℕ) : List ℕ → Prop
  | [] => True
  | a :: rest => (∀ c, (∀ b ∈ rest.head?, c ≤ b) → Shape gain A D a c) ∧ Shapes gain A D rest

/-- The events of `set_attack_time`, `set_decay_time` and `set_sustain_level`. -/
def settings (sequence : ℕ → ℕ) (attack decay : ℝ) : List AdsrEvent :=
  [⟨sequence 0, 0, .setAttack attack⟩, ⟨sequence 1, 0, .setDecay decay⟩, ⟨sequence 2, 0, .setSustain ⟨0⟩⟩]

/-- The value that a parameter has at frame `F`, if that is at time `t` and it was `v` at first: that of the last of those
sets that have been requested by then and whose times have come. -/
def valueAt (v : ℝ) (sets : List (Timed ℝ)) (F : ℕ) (t : Int) : ℝ :=
  ((sets.filter fun s => decide (s.first ≤ F ∧ s.time ≤ t)).map Timed.what).getLastD v

end Clicks
end Rawdio
