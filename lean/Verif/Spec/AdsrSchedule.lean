import Verif.Spec.MixedNodes

/-!
# Specification of the times of an ADSR envelope in a session

Events take effect at the frames of their times, counted from the first frame that the engine renders. Nothing is said
about blocks.
-/

namespace Rawdio

/-- An event for time `t` that is sent when `first` frames have been rendered takes effect at frame `g`: the frame in
which the time falls, but not one that has passed. Times are taken to 3/2 of their unit, which is 2^-32 seconds. -/
def AtFrame (sampleRate first : Nat) (t : Int) (g : Nat) : Prop :=
  first ≤ g ∧ (g = first ∨ (g : ℚ) / sampleRate * 2 ^ 32 ≤ t + 3 / 2) ∧
    (t : ℚ) < (g + 1 : ℚ) / sampleRate * 2 ^ 32 + 3 / 2

/-- The events that are sent to node `i`, each with the number of frames that have been rendered before. -/
def adsrSent {P : Type} (changes : Nat → List (Id × MixedRequest)) (i : Id) (ks : List (Call ℝ P MixedRequest)) :
    List (Nat × AdsrEvent) :=
  (List.range ks.length).flatMap fun j =>
    (changes j).filterMap fun x => if x.1 = i then x.2.adsr?.map fun e => (framesIn (ks.take j), e) else none

/-- The schedule of events: each of `sent` (the frames before it was sent, and the event) together with the frame at
which it takes effect, in the order in which they take effect. Events that are there in time take effect in the order of
their times, and in that of sending for equal times. -/
structure AdsrScheduled (sampleRate : Nat) (sent : List (Nat × AdsrEvent)) (schedule : List (Nat × Nat × AdsrEvent)) :
    Prop where
  all : (schedule.map fun x => x.2).Perm sent
  frames : ∀ x ∈ schedule, AtFrame sampleRate x.2.1 x.2.2.time x.1
  order : schedule.Pairwise fun x y => x.1 ≤ y.1 ∧ (y.2.1 ≤ x.1 → x.2.2.time < y.2.2.time ∨
    (x.2.2.time = y.2.2.time ∧ x.2.2.sequenceNumber ≤ y.2.2.sequenceNumber))

/-- The gains of a note that starts at frame `a` and ends at frame `b`, up to frame `c`: a rise to 1 in `A` frames, a
fall to `s` in `D` frames, `s` until the note ends, a fall to 0 in `R` frames, and 0 from then on. -/
structure NoteShape (gain : ℕ → ℝ) (A D R : ℕ) (s : ℝ) (a b c : ℕ) : Prop where
  rise : ∀ F, a ≤ F → F + 1 < a + A → 0 < gain F ∧ gain F < gain (F + 1)
  top : gain (a + A - 1) = 1
  fall : s < 1 → ∀ F, a + A ≤ F + 1 → F + 1 < a + A + D → gain (F + 1) < gain F ∧ s < gain F
  sustain : ∀ F, a + A + D ≤ F + 1 → F < b → gain F = s
  release : ∀ F, b ≤ F + 1 → F + 1 < b + R → F + 1 < c → gain (F + 1) < gain F ∧ 0 < gain F
  silence : ∀ F, b + R ≤ F + 1 → F < c → gain F = 0

/-- The gains of notes that start and end at some frames. -/
def NotesShape (gain : ℕ → ℝ) (A D R : ℕ) (s : ℝ) : List (ℕ × ℕ) → Prop
  | [] => True
  | x :: rest => (∀ c, (∀ y ∈ rest.head?, c ≤ y.1) → NoteShape gain A D R s x.1 x.2 c) ∧ NotesShape gain A D R s rest

/-- The events of `set_adsr` and of a `note_on_at_time` and a `note_off_at_time` for each note, with their sequence
numbers from `sequence n` on. -/
def adsrNotes (sequence : ℕ → ℕ) (attack decay : ℝ) (sustain : Level) (release : ℝ) (notes : List (Int × Int)) :
    List AdsrEvent :=
  [⟨sequence 0, 0, .setAttack attack⟩, ⟨sequence 1, 0, .setDecay decay⟩, ⟨sequence 2, 0, .setSustain sustain⟩,
    ⟨sequence 3, 0, .setRelease release⟩] ++ go 4 notes
where
  /-- The notes, numbered from `n` on. -/
  go : ℕ → List (Int × Int) → List AdsrEvent
    | _, [] => []
    | n, x :: rest => ⟨sequence n, x.1, .noteOn⟩ :: ⟨sequence (n + 1), x.2, .noteOff⟩ :: go (n + 2) rest

/-- Notes from the time `earliest` on that last until they are at the sustain level, which takes `held` frames, and are
followed by enough time to fade, which takes `fading` frames; and two frames more each. -/
def SpacedNotes (sampleRate held fading : ℕ) : Int → List (Int × Int) → Prop
  | _, [] => True
  | earliest, x :: rest => earliest ≤ x.1 ∧ ((held + 2 : ℕ) : ℚ) / sampleRate * 2 ^ 32 ≤ x.2 - x.1 ∧
    (∀ y ∈ rest.head?, ((fading + 2 : ℕ) : ℚ) / sampleRate * 2 ^ 32 ≤ y.1 - x.2) ∧
    SpacedNotes sampleRate held fading x.2 rest

end Rawdio
