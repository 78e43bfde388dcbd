import Verif.Lemmas.AdsrShape
import Verif.Lemmas.AdsrSchedule

/-! # Several notes of an ADSR envelope -/

namespace Rawdio
namespace AdsrEnvelope

variable {sr : Nat} {a d r : ℝ} {s : Level}

/-- A silent envelope that is ready for a note. -/
structure Quiet (sr : Nat) (a d : ℝ) (s : Level) (r : ℝ) (e : AdsrEnvelope) : Prop where
  settings : e.Settings sr a d s r
  idle : e.phase = .idle
  zero : e.envelope = 0
  rate : e.sampleRate = sr

theorem Quiet.ok (hsr : 0 < sr) (hs : 0 ≤ s.linear ∧ s.linear ≤ 1) {e : AdsrEnvelope} (h : e.Quiet sr a d s r) :
    e.Ok where
  rate := by rw [h.rate]; exact hsr
  envelope := by rw [h.zero]; norm_num
  attack := by rw [h.settings.attack]; exact attack_range a hsr
  decay := by rw [h.settings.decay]; exact decay_range d hs hsr
  sustain := by rw [h.settings.sustain]; exact hs
  release := by rw [h.settings.release]; exact release_range r hs hsr

theorem steps_rate (e : AdsrEnvelope) (n : Nat) : (e.steps n).sampleRate = e.sampleRate := by
  induction n with
  | zero => rfl
  | succ n ih =>
    rw [steps_succ, ← ih]
    unfold AdsrEnvelope.process
    split <;> rfl

theorem Quiet.opened_settings {e : AdsrEnvelope} (h : e.Quiet sr a d s r) : e.opened.Settings sr a d s r :=
  ⟨h.settings.attack, h.settings.decay, h.settings.sustain, h.settings.release⟩

theorem Quiet.rises (hsr : 0 < sr) (hs : 0 ≤ s.linear ∧ s.linear ≤ 1) {e : AdsrEnvelope} (h : e.Quiet sr a d s r) (n : Nat)
    (hn : n < stageFrames a sr) : (e.opened.steps n).envelope < (e.opened.steps (n + 1)).envelope :=
  note_rises hsr hs h.opened_settings rfl h.zero n hn

theorem Quiet.falls (hsr : 0 < sr) (hs : 0 ≤ s.linear ∧ s.linear ≤ 1) (hs1 : s.linear < 1) {e : AdsrEnvelope}
    (h : e.Quiet sr a d s r) (n : Nat) (hn : n < stageFrames d sr) :
    (e.opened.steps (stageFrames a sr + n + 1)).envelope < (e.opened.steps (stageFrames a sr + n)).envelope :=
  have hok := h.ok hsr hs
  note_falls (e := e.opened) hsr hs hs1 ⟨hok.rate, hok.envelope, hok.attack, hok.decay, hok.sustain, hok.release⟩ h.opened_settings rfl
    h.zero n hn

/-- The end of a note that was held until it was at the sustain level. -/
theorem note_fades (hsr : 0 < sr) (hs0 : 0 < s.linear) (hs : s.linear ≤ 1) {e : AdsrEnvelope} (h : e.Settings sr a d s r)
    (hr : e.sampleRate = sr) (hp : e.phase = .release) (he : e.envelope = s.linear) :
    (∀ n, n < stageFrames r sr → 0 < (e.steps n).envelope ∧ (e.steps (n + 1)).envelope < (e.steps n).envelope) ∧
      ∀ n, stageFrames r sr ≤ n → (e.steps n).Quiet sr a d s r := by
  have h1 := release_not_before hsr hs0 h hp he.ge
  have h2 := release_within hsr hs0 h hp (by rw [he]; exact hs0.le) he.le
  have hR : 1 ≤ stageFrames r sr := le_max_left _ _
  have hph : ∀ m, m < stageFrames r sr → (e.steps m).phase = .release := by
    intro m
    induction m with
    | zero => intro _; exact hp
    | succ m ih =>
      intro hm
      have := h1 (m + 1) hm
      rw [steps_succ] at this ⊢
      exact release_goes_on (ih (by omega)) this
  have hor : ∀ m, (e.steps m).phase = .release ∨ (e.steps m).phase = .idle := by
    intro m
    induction m with
    | zero => exact Or.inl hp
    | succ m ih => rw [steps_succ]; exact (faded ih).1
  refine ⟨?_, ?_⟩
  · intro n hn
    refine ⟨h1 n hn, ?_⟩
    rw [steps_succ]
    exact fades (hph n hn) (h1 n hn) (by rw [(h.steps n).release]; exact release_lt_one hsr r hs0 hs)
  · intro n hn
    refine ⟨h.steps n, ?_, h2 n hn, by rw [steps_rate]; exact hr⟩
    obtain ⟨m, rfl⟩ : ∃ m, n = m + 1 := ⟨n - 1, by omega⟩
    have := h2 (m + 1) hn
    rw [steps_succ] at this ⊢
    exact (faded (hor m)).2 this

end AdsrEnvelope

/-! ## The values as a function of the frame -/

theorem adsrValues_getD (events : List (Nat × AdsrEventType)) (n : Nat) : ∀ (f : Nat) (e : AdsrEnvelope) (k : Nat), k < n →
    (adsrValues events f n e).2.getD k 0 = (adsrValues events f (k + 1) e).1.envelope := by
  induction n with
  | zero => intro f e k hk; omega
  | succ n ih =>
    intro f e k hk
    cases k with
    | zero => simp [adsrValues]
    | succ k =>
      have := ih (f + 1) (((events.filter (fun x => x.1 = f)).foldl (fun e x => e.apply x.2) e).process) k (by omega)
      rw [adsrValues]
      simp only [List.getD_cons_succ]
      rw [this]
      conv_rhs => rw [adsrValues]

namespace AdsrSchedule

open AdsrEnvelope

variable {sr : Nat} {a d r : ℝ} {s : Level}

/-- The events of notes at some frames. -/
def noteEvents : List (ℕ × ℕ) → List (Nat × AdsrEventType)
  | [] => []
  | x :: rest => (x.1, .noteOn) :: (x.2, .noteOff) :: noteEvents rest

/-- Notes that are held and fade before the next one. -/
def Spaced (held fading : ℕ) : ℕ → List (ℕ × ℕ) → Prop
  | _, [] => True
  | F, x :: rest => F ≤ x.1 ∧ x.1 + held ≤ x.2 ∧ Spaced held fading (x.2 + fading) rest

theorem spaced_le {held fading : ℕ} (notes : List (ℕ × ℕ)) : ∀ F, Spaced held fading F notes →
    ∀ x ∈ noteEvents notes, F ≤ x.1 := by
  induction notes with
  | nil => intro F _ x hx; cases hx
  | cons y rest ih =>
    intro F h x hx
    obtain ⟨h1, h2, h3⟩ := h
    simp only [noteEvents, List.mem_cons] at hx
    rcases hx with rfl | rfl | hx
    · exact h1
    · show F ≤ y.2
      omega
    · have := ih _ h3 x hx
      omega

theorem skip_steps {events : List (Nat × AdsrEventType)} (f n : Nat) (h : ∀ x ∈ events, f + n ≤ x.1) (e : AdsrEnvelope) :
    (adsrValues events f n e).1 = e.steps n := by
  rw [adsrValues_skip events n f (f + n) e (le_refl _) h, plain_values]

/-- The gains of notes. -/
theorem notes_shape (hsr : 0 < sr) (hs0 : 0 < s.linear) (hs : s.linear ≤ 1) (notes : List (ℕ × ℕ)) :
    ∀ (F0 : ℕ) (e : AdsrEnvelope) (gain : ℕ → ℝ), e.Quiet sr a d s r →
    Spaced (stageFrames a sr + stageFrames d sr) (stageFrames r sr) F0 notes →
    (∀ F, F0 ≤ F → gain F = (adsrValues (noteEvents notes) F0 (F + 1 - F0) e).1.envelope) →
    (∀ F, F0 ≤ F → (∀ x ∈ notes.head?, F < x.1) → gain F = 0) ∧
      NotesShape gain (stageFrames a sr) (stageFrames d sr) (stageFrames r sr) s.linear notes := by
  induction notes with
  | nil =>
    intro F0 e gain hq _ hg
    refine ⟨?_, trivial⟩
    intro F hF _
    rw [hg F hF, noteEvents, plain_values, idle_steps hq.idle hq.zero, hq.zero]
  | cons x rest ih =>
    intro F0 e gain hq hsp hg
    obtain ⟨on, off⟩ := x
    obtain ⟨p1, p2, p3⟩ := hsp
    dsimp only at p1 p2 p3
    have hA : 1 ≤ stageFrames a sr := le_max_left _ _
    have hD : 1 ≤ stageFrames d sr := le_max_left _ _
    have hR : 1 ≤ stageFrames r sr := le_max_left _ _
    obtain ⟨A, hA'⟩ : ∃ A, A = stageFrames a sr := ⟨_, rfl⟩
    obtain ⟨D, hD'⟩ : ∃ D, D = stageFrames d sr := ⟨_, rfl⟩
    obtain ⟨R, hR'⟩ : ∃ R, R = stageFrames r sr := ⟨_, rfl⟩
    have hrest := spaced_le rest _ p3
    have hset : e.opened.Settings sr a d s r :=
      ⟨hq.settings.attack, hq.settings.decay, hq.settings.sustain, hq.settings.release⟩
    obtain ⟨n1, n2, n3, n4⟩ := note_steps hsr ⟨hs0.le, hs⟩ hset rfl hq.zero
    have hok : e.opened.Ok := by
      have := hq.ok hsr ⟨hs0.le, hs⟩
      exact ⟨this.rate, this.envelope, this.attack, this.decay, this.sustain, this.release⟩
    obtain ⟨z, hz⟩ : ∃ z, z = (e.opened.steps (off - on)).closed := ⟨_, rfl⟩
    have hheld := n4 (off - on) (by omega)
    have zset : z.Settings sr a d s r := by
      have := hset.steps (off - on)
      rw [hz]
      exact ⟨this.attack, this.decay, this.sustain, this.release⟩
    have zphase : z.phase = .release := by rw [hz, hheld]; rfl
    have zenv : z.envelope = s.linear := by rw [hz, hheld]; rfl
    have zrate : z.sampleRate = sr := by
      rw [hz]
      show (e.opened.steps (off - on)).sampleRate = sr
      rw [steps_rate]
      exact hq.rate
    obtain ⟨f1, f2⟩ := note_fades hsr hs0 hs zset zrate zphase zenv
    have eb : noteEvents ((on, off) :: rest) = (on, .noteOn) :: (off, .noteOff) :: noteEvents rest := rfl
    rw [← hA'] at hA n1 n2 n3 n4
    rw [← hD'] at hD n3 n4
    rw [← hR'] at hR f1 f2 hrest
    rw [← hA', ← hD'] at p2
    rw [← hA', ← hD', ← hR'] at p3 ih
    rw [← hA', ← hD', ← hR']
    -- before the note
    have before : ∀ F, F0 ≤ F → F < on → gain F = 0 := by
      intro F hF hF'
      rw [hg F hF, skip_steps, idle_steps hq.idle hq.zero, hq.zero]
      intro x hx
      rw [eb, List.mem_cons, List.mem_cons] at hx
      rcases hx with rfl | rfl | hx
      · show F0 + (F + 1 - F0) ≤ on
        omega
      · show F0 + (F + 1 - F0) ≤ off
        omega
      · have := hrest x hx
        omega
    have upto : ∀ m, adsrValues (noteEvents ((on, off) :: rest)) F0 (on - F0 + m) e =
        ((adsrValues (noteEvents ((on, off) :: rest)) on m e).1,
          (adsrValues (noteEvents ((on, off) :: rest)) F0 (on - F0) e).2 ++
            (adsrValues (noteEvents ((on, off) :: rest)) on m e).2) := by
      intro m
      have h1 : (adsrValues (noteEvents ((on, off) :: rest)) F0 (on - F0) e).1 = e := by
        rw [skip_steps, idle_steps hq.idle hq.zero]
        intro x hx
        rw [eb, List.mem_cons, List.mem_cons] at hx
        rcases hx with rfl | rfl | hx
        · show F0 + (on - F0) ≤ on
          omega
        · show F0 + (on - F0) ≤ off
          omega
        · have := hrest x hx
          omega
      rw [adsrValues_append, h1]
      have : F0 + (on - F0) = on := by omega
      rw [this]
    have started : ∀ m, 0 < m → adsrValues (noteEvents ((on, off) :: rest)) on m e =
        adsrValues ((off, .noteOff) :: noteEvents rest) on m e.opened := by
      intro m hm
      rw [eb, adsrValues_cons (on, .noteOn) _ m hm e]
      rfl
    have holding : ∀ m, m ≤ off - on → (adsrValues ((off, .noteOff) :: noteEvents rest) on m e.opened).1 =
        e.opened.steps m := by
      intro m hm
      apply skip_steps
      intro x hx
      rw [List.mem_cons] at hx
      rcases hx with rfl | hx
      · show on + m ≤ off
        omega
      · have := hrest x hx
        omega
    have held : ∀ F, on ≤ F → F < off → gain F = (e.opened.steps (F + 1 - on)).envelope := by
      intro F h1 h2
      have : F + 1 - F0 = (on - F0) + (F + 1 - on) := by omega
      rw [hg F (by omega), this, upto, started _ (by omega), holding _ (by omega)]
    have ending : ∀ m, 0 < m → (adsrValues (noteEvents ((on, off) :: rest)) F0 (off - F0 + m) e).1 =
        (adsrValues (noteEvents rest) off m z).1 := by
      intro m hm
      have : off - F0 + m = (on - F0) + ((off - on) + m) := by omega
      rw [this, upto, started _ (by omega), adsrValues_append, holding _ (le_refl _)]
      have h2 : on + (off - on) = off := by omega
      rw [h2, adsrValues_cons (off, .noteOff) _ m hm, hz]
      rfl
    have fading : ∀ m, m ≤ R → (adsrValues (noteEvents rest) off m z).1 = z.steps m := by
      intro m hm
      apply skip_steps
      intro x hx
      have := hrest x hx
      omega
    have quiet := f2 R (le_refl _)
    -- the rest
    obtain ⟨r1, r2⟩ := ih (off + R) (z.steps R) gain quiet p3 (by
      intro F hF
      have h1 : F + 1 - F0 = off - F0 + (F + 1 - off) := by omega
      have h2 : F + 1 - off = R + (F + 1 - (off + R)) := by omega
      rw [hg F (by omega), h1, ending _ (by omega), h2, adsrValues_append, fading R (le_refl _)])
    have released : ∀ F, off ≤ F → F + 1 ≤ off + R → gain F = (z.steps (F + 1 - off)).envelope := by
      intro F h1 h2
      have h3 : F + 1 - F0 = off - F0 + (F + 1 - off) := by omega
      rw [hg F (by omega), h3, ending _ (by omega), fading _ (by omega)]
    have last : ∀ F, off ≤ F + 1 → F + 1 ≤ off + R → gain F = (z.steps (F + 1 - off)).envelope := by
      intro F h1 h2
      rcases Nat.lt_or_ge F off with h3 | h3
      · have h4 : F + 1 - off = 0 := by omega
        have h5 : F + 1 - on = off - on := by omega
        rw [held F (by omega) h3, h4, h5, hz]
        rfl
      · exact released F h3 h2
    refine ⟨?_, ?_, r2⟩
    · intro F hF hx
      exact before F hF (hx _ rfl)
    · intro c hc
      refine ⟨?_, ?_, ?_, ?_, ?_, ?_⟩
      · intro F h1 h2
        rw [held F h1 (by omega), held (F + 1) (by omega) (by omega)]
        have e1 : F + 1 + 1 - on = (F + 1 - on) + 1 := by omega
        have e2 : F + 1 - on = (F - on) + 1 := by omega
        rw [e1]
        refine ⟨?_, hq.rises hsr ⟨hs0.le, hs⟩ _ (by rw [← hA']; omega)⟩
        rw [e2]
        have g1 := hq.rises hsr ⟨hs0.le, hs⟩ (F - on) (by rw [← hA']; omega)
        have g2 := (hok.steps (F - on)).envelope.1
        linarith
      · rw [held _ (by dsimp only; omega) (by dsimp only; omega)]
        have : on + A - 1 + 1 - on = A := by omega
        rw [this, n2]
      · intro hs1 F h1 h2
        dsimp only at h1 h2
        obtain ⟨n, hn⟩ : ∃ n, F + 1 = on + A + n := ⟨F + 1 - (on + A), by omega⟩
        rw [held F (by omega) (by omega), held (F + 1) (by omega) (by omega)]
        have e1 : F + 1 + 1 - on = A + n + 1 := by omega
        have e2 : F + 1 - on = A + n := by omega
        rw [e1, e2]
        refine ⟨?_, n3 n (by omega) hs1⟩
        have := hq.falls hsr ⟨hs0.le, hs⟩ hs1 n (by rw [← hD']; omega)
        rw [← hA'] at this
        exact this
      · intro F h1 h2
        dsimp only at h1 h2
        rw [held F (by omega) h2, n4 _ (by omega)]
      · intro F h1 h2 _
        dsimp only at h1 h2
        rw [last F h1 (by omega), last (F + 1) (by omega) (by omega)]
        have e1 : F + 1 + 1 - off = (F + 1 - off) + 1 := by omega
        rw [e1]
        have := f1 (F + 1 - off) (by omega)
        exact ⟨this.2, this.1⟩
      · intro F h1 h2
        dsimp only at h1
        rcases Nat.lt_or_ge F (off + R) with h3 | h3
        · rw [last F (by omega) (by omega)]
          have e1 : F + 1 - off = R := by omega
          rw [e1]
          exact quiet.zero
        · exact r1 F h3 (fun y hy => lt_of_lt_of_le h2 (hc y hy))

/-! ## Notes in a session -/

/-- The order in which events take effect. -/
def Before (x y : AdsrEvent) : Prop :=
  x.time < y.time ∨ (x.time = y.time ∧ x.sequenceNumber ≤ y.sequenceNumber)

theorem go_sorted {held fading : ℕ} (hsr : 0 < sr) {sequence : ℕ → ℕ} (hseq : StrictMono sequence)
    (notes : List (Int × Int)) : ∀ (n : ℕ) (t : Int), SpacedNotes sr held fading t notes →
    (adsrNotes.go sequence n notes).Pairwise (fun x y => Before x y ∧ x.sequenceNumber < y.sequenceNumber) ∧
      ∀ x ∈ adsrNotes.go sequence n notes, t ≤ x.time ∧ sequence n ≤ x.sequenceNumber := by
  induction notes with
  | nil => intro n t _; exact ⟨List.Pairwise.nil, by simp [adsrNotes.go]⟩
  | cons y rest ih =>
    intro n t h
    obtain ⟨h1, h2, h3, h4⟩ := h
    obtain ⟨i1, i2⟩ := ih (n + 2) y.2 h4
    have hp : (0 : ℚ) < sr := by exact_mod_cast hsr
    have hlt : y.1 < y.2 := by
      have h5 : (0 : ℚ) < ((held + 2 : ℕ) : ℚ) / sr * 2 ^ 32 := by positivity
      have h6 : ((y.1 : Int) : ℚ) < y.2 := by linarith
      exact_mod_cast h6
    have s1 : sequence n < sequence (n + 1) := hseq (by omega)
    have s2 : sequence (n + 1) < sequence (n + 2) := hseq (by omega)
    constructor
    · simp only [adsrNotes.go, List.pairwise_cons, List.mem_cons]
      refine ⟨?_, ?_, i1⟩
      · rintro x (rfl | hx)
        · exact ⟨Or.inl hlt, s1⟩
        · have := i2 x hx
          refine ⟨Or.inl ?_, ?_⟩
          · show y.1 < x.time
            omega
          · show sequence n < x.sequenceNumber
            omega
      · intro x hx
        have := i2 x hx
        refine ⟨?_, ?_⟩
        · unfold Before
          dsimp only
          omega
        · show sequence (n + 1) < x.sequenceNumber
          omega
    · intro x hx
      simp only [adsrNotes.go, List.mem_cons] at hx
      rcases hx with rfl | rfl | hx
      · exact ⟨h1, le_refl _⟩
      · exact ⟨by show t ≤ y.2; omega, s1.le⟩
      · have := i2 x hx
        exact ⟨by omega, by omega⟩

theorem notes_sorted {held fading : ℕ} (hsr : 0 < sr) {sequence : ℕ → ℕ} (hseq : StrictMono sequence)
    (notes : List (Int × Int)) (h : SpacedNotes sr held fading 0 notes) :
    (adsrNotes sequence a d s r notes).Pairwise (fun x y => Before x y ∧ x.sequenceNumber < y.sequenceNumber) := by
  obtain ⟨h1, h2⟩ := go_sorted hsr hseq notes 4 0 h
  have s0 : sequence 0 < sequence 1 := hseq (by omega)
  have s1 : sequence 1 < sequence 2 := hseq (by omega)
  have s2 : sequence 2 < sequence 3 := hseq (by omega)
  have s3 : sequence 3 < sequence 4 := hseq (by omega)
  have key : ∀ (j : ℕ) (ty : AdsrEventType), j ≤ 3 → ∀ x ∈ adsrNotes.go sequence 4 notes,
      Before ⟨sequence j, 0, ty⟩ x ∧ sequence j < x.sequenceNumber := by
    intro j ty hj x hx
    have h3 := h2 x hx
    have h4 : sequence j ≤ sequence 3 := hseq.monotone hj
    unfold Before
    dsimp only
    omega
  simp only [adsrNotes, List.cons_append, List.nil_append, List.pairwise_cons, List.mem_cons]
  refine ⟨?_, ?_, ?_, ?_, h1⟩
  · rintro x (rfl | rfl | rfl | hx)
    · unfold Before; dsimp only; omega
    · unfold Before; dsimp only; omega
    · unfold Before; dsimp only; omega
    · exact key 0 _ (by omega) x hx
  · rintro x (rfl | rfl | hx)
    · unfold Before; dsimp only; omega
    · unfold Before; dsimp only; omega
    · exact key 1 _ (by omega) x hx
  · rintro x (rfl | hx)
    · unfold Before; dsimp only; omega
    · exact key 2 _ (by omega) x hx
  · intro x hx
    exact key 3 _ (by omega) x hx

/-- A schedule of events that were sent together, in order. -/
theorem in_order {sent : List AdsrEvent} {schedule : List (Nat × Nat × AdsrEvent)}
    (h : AdsrScheduled sr (sent.map fun e => (0, e)) schedule)
    (hs : sent.Pairwise fun x y => Before x y ∧ x.sequenceNumber < y.sequenceNumber) :
    schedule.map (fun x => x.2) = sent.map fun e => (0, e) := by
  have hzero : ∀ x ∈ schedule, x.2.1 = 0 := by
    intro x hx
    have := h.all.mem_iff.mp (List.mem_map_of_mem hx)
    obtain ⟨e, _, he⟩ := List.mem_map.mp this
    rw [← he]
  have h1 : (schedule.map fun x => x.2).Pairwise fun x y => Before x.2 y.2 := by
    rw [List.pairwise_map]
    refine h.order.imp_of_mem ?_
    intro x y _ hy hxy
    exact hxy.2 (by rw [hzero y hy]; omega)
  have h2 : (sent.map fun e => ((0 : Nat), e)).Pairwise fun x y => Before x.2 y.2 := by
    rw [List.pairwise_map]
    exact hs.imp fun h => h.1
  refine List.Perm.eq_of_pairwise ?_ h1 h2 h.all
  intro x y hx hy hxy hyx
  have hx' := h.all.mem_iff.mp hx
  obtain ⟨e, he, rfl⟩ := List.mem_map.mp hx'
  obtain ⟨f, hf, rfl⟩ := List.mem_map.mp hy
  have hseq : e.sequenceNumber = f.sequenceNumber := by
    unfold Before at hxy hyx
    dsimp only at hxy hyx
    omega
  have hn : (sent.map fun e => e.sequenceNumber).Nodup := by
    rw [List.nodup_iff_pairwise_ne, List.pairwise_map]
    exact hs.imp fun h => ne_of_lt h.2
  rw [List.inj_on_of_nodup_map hn he hf hseq]

/-- The frames of notes. -/
theorem note_frames {sequence : ℕ → ℕ} (notes : List (Int × Int)) : ∀ (n : ℕ) (schedule : List (Nat × Nat × AdsrEvent)),
    schedule.map (fun x => x.2) = (adsrNotes.go sequence n notes).map (fun e => (0, e)) →
    (∀ x ∈ schedule, AtFrame sr x.2.1 x.2.2.time x.1) →
    ∃ frames : List (ℕ × ℕ), List.Forall₂ (fun x y => AtFrame sr 0 x.1 y.1 ∧ AtFrame sr 0 x.2 y.2) notes frames ∧
      schedule.map (fun x => (x.1, x.2.2.eventType)) = noteEvents frames := by
  induction notes with
  | nil =>
    intro n schedule h _
    simp only [adsrNotes.go, List.map_nil, List.map_eq_nil_iff] at h
    subst h
    exact ⟨[], .nil, rfl⟩
  | cons y rest ih =>
    intro n schedule h hf
    match schedule, h, hf with
    | [], h, _ => simp [adsrNotes.go] at h
    | [_], h, _ => simp [adsrNotes.go] at h
    | (g1, f1, e1) :: (g2, f2, e2) :: sch, h, hf =>
      simp only [adsrNotes.go, List.map_cons, List.cons.injEq, Prod.mk.injEq] at h
      obtain ⟨⟨rfl, rfl⟩, ⟨rfl, rfl⟩, h3⟩ := h
      obtain ⟨frames, i1, i2⟩ := ih (n + 2) sch h3
        (fun x hx => hf x (List.mem_cons_of_mem _ (List.mem_cons_of_mem _ hx)))
      refine ⟨(g1, g2) :: frames, .cons ⟨?_, ?_⟩ i1, ?_⟩
      · exact hf (g1, 0, _) List.mem_cons_self
      · exact hf (g2, 0, _) (List.mem_cons_of_mem _ List.mem_cons_self)
      · simp only [List.map_cons, noteEvents, i2]

theorem unit_pos (hsr : 0 < sr) : (0 : ℚ) < 1 / sr * 2 ^ 32 := by
  have hp : (0 : ℚ) < sr := by exact_mod_cast hsr
  positivity

theorem unit_large (hsr : 0 < sr) (hle : sr ≤ 2 ^ 30) : (4 : ℚ) ≤ 1 / sr * 2 ^ 32 := by
  have hp : (0 : ℚ) < sr := by exact_mod_cast hsr
  have h : (sr : ℚ) ≤ 2 ^ 30 := by exact_mod_cast hle
  rw [div_mul_eq_mul_div, le_div_iff₀ hp]
  linarith

theorem at_zero (hsr : 0 < sr) (hle : sr ≤ 2 ^ 30) {g : Nat} (h : AtFrame sr 0 0 g) : g = 0 := by
  rcases h.2.1 with h1 | h1
  · exact h1
  · by_contra hg
    have hu := unit_large hsr hle
    have h2 : (1 : ℚ) ≤ g := by exact_mod_cast Nat.one_le_iff_ne_zero.mpr hg
    have h3 : (g : ℚ) / sr * 2 ^ 32 = g * (1 / sr * 2 ^ 32) := by ring
    rw [h3] at h1
    push_cast at h1
    nlinarith

theorem at_gap (hsr : 0 < sr) (hle : sr ≤ 2 ^ 30) {t u : Int} {g k n : Nat} (ht : 0 ≤ t) (h1 : AtFrame sr 0 t g)
    (h2 : AtFrame sr 0 u k) (h : ((n + 2 : ℕ) : ℚ) / sr * 2 ^ 32 ≤ u - t) : g + n ≤ k := by
  have hu := unit_large hsr hle
  obtain ⟨v, hv⟩ : ∃ v : ℚ, v = 1 / sr * 2 ^ 32 := ⟨_, rfl⟩
  have h3 : (g : ℚ) / sr * 2 ^ 32 ≤ t + 3 / 2 := by
    rcases h1.2.1 with h | h
    · rw [h]
      have : (0 : ℚ) ≤ t := by exact_mod_cast ht
      simp
      linarith
    · exact h
  have h4 := h2.2.2
  have e1 : (g : ℚ) / sr * 2 ^ 32 = g * v := by rw [hv]; ring
  have e2 : ((k : ℚ) + 1) / sr * 2 ^ 32 = (k + 1) * v := by rw [hv]; ring
  have e3 : ((n + 2 : ℕ) : ℚ) / sr * 2 ^ 32 = (n + 2) * v := by rw [hv]; push_cast; ring
  rw [e1] at h3
  rw [e2] at h4
  rw [e3] at h
  rw [← hv] at hu
  by_contra hc
  have hc' : (k : ℚ) + 1 ≤ g + n := by exact_mod_cast (by omega : k + 1 ≤ g + n)
  nlinarith

theorem spaced_frames {held fading : ℕ} (hsr : 0 < sr) (hle : sr ≤ 2 ^ 30) (notes : List (Int × Int)) :
    ∀ (t : Int) (frames : List (ℕ × ℕ)) (F : ℕ), 0 ≤ t → SpacedNotes sr held fading t notes →
    List.Forall₂ (fun x y => AtFrame sr 0 x.1 y.1 ∧ AtFrame sr 0 x.2 y.2) notes frames →
    (∀ x ∈ frames.head?, F ≤ x.1) → Spaced held fading F frames := by
  induction notes with
  | nil => intro t frames F _ _ h _; cases h; trivial
  | cons y rest ih =>
    intro t frames F ht h hf hF
    cases hf with
    | @cons _ z _ fs hz hfs =>
      obtain ⟨h1, h2, h3, h4⟩ := h
      have hlt : y.1 ≤ y.2 := by
        have hp : (0 : ℚ) < sr := by exact_mod_cast hsr
        have h5 : (0 : ℚ) ≤ ((held + 2 : ℕ) : ℚ) / sr * 2 ^ 32 := by positivity
        have h6 : ((y.1 : Int) : ℚ) ≤ y.2 := by linarith
        exact_mod_cast h6
      refine ⟨hF z rfl, at_gap hsr hle (by omega) hz.1 hz.2 h2, ih y.2 fs _ (by omega) h4 hfs ?_⟩
      intro x hx
      cases hfs with
      | nil => cases hx
      | @cons w v _ _ hw _ =>
        cases hx
        exact at_gap hsr hle (by omega) hz.2 hw.1 (h3 w rfl)

/-- The gains of notes that are sent together. -/
theorem notes_gain (hsr : 0 < sr) (hle : sr ≤ 2 ^ 30) (hs0 : 0 < s.linear) (hs : s.linear ≤ 1) {sequence : ℕ → ℕ}
    (hseq : StrictMono sequence) (notes : List (Int × Int))
    (hn : SpacedNotes sr (stageFrames a sr + stageFrames d sr) (stageFrames r sr) 0 notes)
    {schedule : List (Nat × Nat × AdsrEvent)}
    (h : AdsrScheduled sr ((adsrNotes sequence a d s r notes).map fun e => (0, e)) schedule) :
    ∃ (frames : List (ℕ × ℕ)) (gain : ℕ → ℝ),
      List.Forall₂ (fun x y => AtFrame sr 0 x.1 y.1 ∧ AtFrame sr 0 x.2 y.2) notes frames ∧
      (∀ F, (∀ x ∈ frames.head?, F < x.1) → gain F = 0) ∧
      NotesShape gain (stageFrames a sr) (stageFrames d sr) (stageFrames r sr) s.linear frames ∧
      ∀ n, ∀ F < n, (adsrValues (schedule.map fun x => (x.1, x.2.2.eventType)) 0 n
        (AdsrEnvelope.new sr 0 0 (Level.fromDb 0) 0)).2.getD F 0 = gain F := by
  have ho := in_order h (notes_sorted hsr hseq notes hn)
  have hfr := h.frames
  match schedule, ho, hfr with
  | [], ho, _ => simp [adsrNotes] at ho
  | [_], ho, _ => simp [adsrNotes] at ho
  | [_, _], ho, _ => simp [adsrNotes] at ho
  | [_, _, _], ho, _ => simp [adsrNotes] at ho
  | (g0, f0, e0) :: (g1, f1, e1) :: (g2, f2, e2) :: (g3, f3, e3) :: sch, ho, hfr =>
    simp only [adsrNotes, List.cons_append, List.nil_append, List.map_cons, List.cons.injEq, Prod.mk.injEq] at ho
    obtain ⟨⟨rfl, rfl⟩, ⟨rfl, rfl⟩, ⟨rfl, rfl⟩, ⟨rfl, rfl⟩, ho⟩ := ho
    simp only [List.mem_cons, forall_eq_or_imp] at hfr
    obtain ⟨z0, z1, z2, z3, hfr⟩ := hfr
    obtain rfl := at_zero hsr hle z0
    obtain rfl := at_zero hsr hle z1
    obtain rfl := at_zero hsr hle z2
    obtain rfl := at_zero hsr hle z3
    obtain ⟨frames, i1, i2⟩ := note_frames notes 4 sch ho hfr
    have hsp := spaced_frames hsr hle notes 0 frames 0 (le_refl _) hn i1 (fun _ _ => Nat.zero_le _)
    obtain ⟨e, he⟩ : ∃ e : AdsrEnvelope, e = ((((AdsrEnvelope.new sr 0 0 (Level.fromDb 0) 0).apply (.setAttack a)).apply
      (.setDecay d)).apply (.setSustain s)).apply (.setRelease r) := ⟨_, rfl⟩
    have hq : e.Quiet sr a d s r := by
      rw [he]
      exact ⟨⟨rfl, rfl, rfl, rfl⟩, rfl, rfl, rfl⟩
    obtain ⟨k1, k2⟩ := notes_shape hsr hs0 hs frames 0 e
      (fun F => (adsrValues (noteEvents frames) 0 (F + 1) e).1.envelope) hq hsp (fun F _ => rfl)
    refine ⟨frames, _, i1, fun F hF => k1 F (Nat.zero_le _) hF, k2, ?_⟩
    intro n F hF
    have hn : 0 < n := by omega
    simp only [List.map_cons, i2]
    have c0 := fun l => adsrValues_cons (0, .setAttack a) l n hn (AdsrEnvelope.new sr 0 0 (Level.fromDb 0) 0)
    rw [c0]
    have c1 := fun l => adsrValues_cons (0, .setDecay d) l n hn
      ((AdsrEnvelope.new sr 0 0 (Level.fromDb 0) 0).apply (.setAttack a))
    have c2 := fun l => adsrValues_cons (0, .setSustain s) l n hn
      (((AdsrEnvelope.new sr 0 0 (Level.fromDb 0) 0).apply (.setAttack a)).apply (.setDecay d))
    have c3 := fun l => adsrValues_cons (0, .setRelease r) l n hn
      ((((AdsrEnvelope.new sr 0 0 (Level.fromDb 0) 0).apply (.setAttack a)).apply (.setDecay d)).apply (.setSustain s))
    dsimp only at c1 c2 c3 ⊢
    rw [c1, c2, c3, ← he, adsrValues_getD _ _ _ _ _ hF]

end AdsrSchedule
end Rawdio
