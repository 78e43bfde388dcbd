import Verif.Spec.Clicks
import Verif.Lemmas.AdsrNotes

/-! # Clicks of an ADSR envelope -/

namespace Rawdio
namespace Clicks

open AdsrEnvelope AdsrSchedule

variable {sr : Nat} {a d r : ℝ}

/-- A silent envelope: no note has begun, or the last is at the sustain level 0. -/
structure Rest (sr : Nat) (a d r : ℝ) (e : AdsrEnvelope) : Prop where
  settings : e.Settings sr a d ⟨0⟩ r
  phase : e.phase = .idle ∨ e.phase = .sustain
  zero : e.envelope = 0
  rate : e.sampleRate = sr

theorem Rest.steps {e : AdsrEnvelope} (h : Rest sr a d r e) (n : ℕ) : e.steps n = e := by
  induction n with
  | zero => rfl
  | succ n ih =>
    rw [steps_succ, ih]
    have hz := h.zero
    have hs := h.settings.sustain
    have hp := h.phase
    unfold AdsrEnvelope.process
    cases e
    simp only at hz hs hp ⊢
    subst hz
    rcases hp with hp | hp <;> subst hp
    · rfl
    · simp only [hs]

/-- The events of clicks at some frames. -/
def clickEvents (frames : List ℕ) : List (Nat × AdsrEventType) := frames.map fun f => (f, .noteOn)

theorem clicks_shape (hsr : 0 < sr) (frames : List ℕ) : ∀ (F0 : ℕ) (e : AdsrEnvelope) (gain : ℕ → ℝ), Rest sr a d r e →
    (F0 :: frames).Pairwise (· ≤ ·) →
    frames.Pairwise (fun x y => x + (stageFrames a sr + stageFrames d sr) ≤ y) →
    (∀ F, F0 ≤ F → gain F = (adsrValues (clickEvents frames) F0 (F + 1 - F0) e).1.envelope) →
    (∀ F, F0 ≤ F → (∀ x ∈ frames.head?, F < x) → gain F = 0) ∧
      Shapes gain (stageFrames a sr) (stageFrames d sr) frames := by
  induction frames with
  | nil =>
    intro F0 e gain hq _ _ hg
    refine ⟨?_, trivial⟩
    intro F hF _
    rw [hg F hF, clickEvents, List.map_nil, plain_values, hq.steps, hq.zero]
  | cons on rest ih =>
    intro F0 e gain hq hle hsp hg
    have p1 : F0 ≤ on := (List.pairwise_cons.mp hle).1 on (by simp)
    obtain ⟨hrest, hsp'⟩ := List.pairwise_cons.mp hsp
    have hA : 1 ≤ stageFrames a sr := le_max_left _ _
    have hD : 1 ≤ stageFrames d sr := le_max_left _ _
    have hs : (0 : ℝ) ≤ (⟨0⟩ : Level).linear ∧ (⟨0⟩ : Level).linear ≤ 1 := by norm_num
    have hset : e.opened.Settings sr a d ⟨0⟩ r :=
      ⟨hq.settings.attack, hq.settings.decay, hq.settings.sustain, hq.settings.release⟩
    obtain ⟨n1, n2, n3, n4⟩ := note_steps hsr hs hset rfl hq.zero
    have hok : e.opened.Ok := by
      refine ⟨?_, ?_, ?_, ?_, ?_, ?_⟩
      · show 0 < e.sampleRate
        rw [hq.rate]; exact hsr
      · show 0 ≤ e.envelope ∧ e.envelope ≤ 1
        rw [hq.zero]; norm_num
      · rw [hset.attack]; exact attack_range a hsr
      · rw [hset.decay]; exact decay_range d hs hsr
      · rw [hset.sustain]; exact hs
      · rw [hset.release]; exact release_range r hs hsr
    have rises := note_rises hsr hs hset rfl hq.zero
    have falls := note_falls hsr hs (by norm_num) hok hset rfl hq.zero
    generalize hA' : stageFrames a sr = A at *
    generalize hD' : stageFrames d sr = D at *
    have eb : clickEvents (on :: rest) = (on, .noteOn) :: clickEvents rest := rfl
    have hlate : ∀ x ∈ clickEvents rest, on + (A + D) ≤ x.1 := by
      intro x hx
      obtain ⟨f, hf, rfl⟩ := List.mem_map.mp hx
      exact hrest f hf
    have hall : ∀ x ∈ clickEvents (on :: rest), on ≤ x.1 := by
      intro x hx
      rw [eb, List.mem_cons] at hx
      rcases hx with rfl | hx
      · exact le_refl _
      · have := hlate x hx
        omega
    have before : ∀ F, F0 ≤ F → F < on → gain F = 0 := by
      intro F hF hF'
      rw [hg F hF, skip_steps, hq.steps, hq.zero]
      intro x hx
      have := hall x hx
      omega
    have started : ∀ m, 0 < m → (adsrValues (clickEvents (on :: rest)) F0 (on - F0 + m) e).1 =
        (adsrValues (clickEvents rest) on m e.opened).1 := by
      intro m hm
      have h1 : (adsrValues (clickEvents (on :: rest)) F0 (on - F0) e).1 = e := by
        rw [skip_steps, hq.steps]
        intro x hx
        have := hall x hx
        omega
      have h2 : F0 + (on - F0) = on := by omega
      rw [adsrValues_append, h1, h2, eb, adsrValues_cons (on, .noteOn) _ m hm e]
      rfl
    have playing : ∀ m, m ≤ A + D → (adsrValues (clickEvents rest) on m e.opened).1 = e.opened.steps m := by
      intro m hm
      apply skip_steps
      intro x hx
      have := hlate x hx
      omega
    have held : ∀ F, on ≤ F → F < on + (A + D) → gain F = (e.opened.steps (F + 1 - on)).envelope := by
      intro F h1 h2
      have : F + 1 - F0 = (on - F0) + (F + 1 - on) := by omega
      rw [hg F (by omega), this, started _ (by omega), playing _ (by omega)]
    have hz := n4 (A + D) (le_refl _)
    have hrest' : Rest sr a d r (e.opened.steps (A + D)) := by
      refine ⟨hset.steps _, ?_, ?_, ?_⟩
      · rw [hz]; exact .inr rfl
      · rw [hz]
      · rw [steps_rate]; exact hq.rate
    obtain ⟨r1, r2⟩ := ih (on + (A + D)) _ gain hrest' (by
        rw [List.pairwise_cons]
        exact ⟨hrest, (List.pairwise_cons.mp (List.pairwise_cons.mp hle).2).2⟩) hsp' (by
      intro F hF
      have h1 : F + 1 - F0 = (on - F0) + (F + 1 - on) := by omega
      have h2 : F + 1 - on = (A + D) + (F + 1 - (on + (A + D))) := by omega
      rw [hg F (by omega), h1, started _ (by omega), h2, adsrValues_append, playing _ (le_refl _)])
    refine ⟨fun F hF hx => before F hF (hx on rfl), ?_, r2⟩
    intro c hc
    refine ⟨?_, ?_, ?_, ?_⟩
    · intro F h1 h2
      rw [held F h1 (by omega), held (F + 1) (by omega) (by omega)]
      have e1 : F + 1 + 1 - on = (F + 1 - on) + 1 := by omega
      have e2 : F + 1 - on = (F - on) + 1 := by omega
      rw [e1]
      refine ⟨?_, rises _ (by omega)⟩
      rw [e2]
      have g1 := rises (F - on) (by omega)
      have g2 := (hok.steps (F - on)).envelope.1
      linarith
    · rw [held _ (by omega) (by omega)]
      have : on + A - 1 + 1 - on = A := by omega
      rw [this, n2]
    · intro F h1 h2
      obtain ⟨n, hn⟩ : ∃ n, F + 1 = on + A + n := ⟨F + 1 - (on + A), by omega⟩
      rw [held F (by omega) (by omega), held (F + 1) (by omega) (by omega)]
      have e1 : F + 1 + 1 - on = A + n + 1 := by omega
      have e2 : F + 1 - on = A + n := by omega
      rw [e1, e2]
      exact ⟨falls n (by omega), n3 n (by omega) (by norm_num)⟩
    · intro F h1 h2
      rcases Nat.lt_or_ge F (on + (A + D)) with h3 | h3
      · have e1 : F + 1 - on = A + D := by omega
        rw [held F (by omega) h3, e1, hz]
      · exact r1 F h3 fun x hx => lt_of_lt_of_le h2 (hc x hx)

/-! ## Clicks in a session -/

/-- Events that are sent in the order of their times take effect in this order. -/
theorem in_order {sent : List (Nat × AdsrEvent)} {schedule : List (Nat × Nat × AdsrEvent)}
    (h : AdsrScheduled sr sent schedule)
    (hs : sent.Pairwise fun x y => x.1 ≤ y.1 ∧ Before x.2 y.2 ∧ x.2.sequenceNumber < y.2.sequenceNumber) :
    schedule.map (fun x => x.2) = sent := by
  have key : ∀ x ∈ sent, ∀ y ∈ sent, x.2.sequenceNumber < y.2.sequenceNumber → x.1 ≤ y.1 ∧ Before x.2 y.2 := by
    intro x hx y hy hlt
    obtain ⟨i, hi, rfl⟩ := List.mem_iff_getElem.mp hx
    obtain ⟨j, hj, rfl⟩ := List.mem_iff_getElem.mp hy
    rcases Nat.lt_trichotomy i j with h1 | h1 | h1
    · have := List.pairwise_iff_getElem.mp hs i j hi hj h1
      exact ⟨this.1, this.2.1⟩
    · subst h1
      omega
    · have := List.pairwise_iff_getElem.mp hs j i hj hi h1
      omega
  have hmem : ∀ x ∈ schedule, x.2 ∈ sent := fun x hx => h.all.mem_iff.mp (List.mem_map_of_mem hx)
  have h1 : (schedule.map fun x => x.2).Pairwise fun x y => x.2.sequenceNumber ≤ y.2.sequenceNumber := by
    rw [List.pairwise_map]
    refine h.order.imp_of_mem ?_
    intro x y hx hy hxy
    by_contra hlt
    obtain ⟨k1, k2⟩ := key _ (hmem y hy) _ (hmem x hx) (by omega)
    have k3 := hxy.2 (le_trans k1 (h.frames x hx).1)
    unfold Before at k2
    omega
  have h2 : sent.Pairwise fun x y => x.2.sequenceNumber ≤ y.2.sequenceNumber := hs.imp fun h => h.2.2.le
  refine List.Perm.eq_of_pairwise ?_ h1 h2 h.all
  intro x y hx hy hxy hyx
  have hn : (sent.map fun e => e.2.sequenceNumber).Nodup := by
    rw [List.nodup_iff_pairwise_ne, List.pairwise_map]
    exact hs.imp fun h => ne_of_lt h.2.2
  exact List.inj_on_of_nodup_map hn (h.all.mem_iff.mp hx) hy (le_antisymm hxy hyx)

theorem at_due (hsr : 0 < sr) {α : Type} (x : Timed α) {g : Nat} (h : AtFrame sr x.first x.time g) :
    (g : ℚ) / sr * 2 ^ 32 ≤ x.due sr + 3 / 2 ∧ x.due sr < ((g : ℚ) + 1) / sr * 2 ^ 32 + 3 / 2 := by
  have hp : (0 : ℚ) < sr := by exact_mod_cast hsr
  obtain ⟨h1, h2, h3⟩ := h
  unfold Timed.due
  constructor
  · rcases h2 with h2 | h2
    · have := le_max_right (x.time : ℚ) (x.first / sr * 2 ^ 32)
      rw [h2]
      linarith
    · have := le_max_left (x.time : ℚ) (x.first / sr * 2 ^ 32)
      linarith
  · refine max_lt h3 ?_
    have : (x.first : ℚ) / sr * 2 ^ 32 ≤ (g : ℚ) / sr * 2 ^ 32 := by
      have : (x.first : ℚ) ≤ g := by exact_mod_cast h1
      gcongr
    have h4 : (0 : ℚ) < 1 / sr * 2 ^ 32 := by positivity
    have h5 : ((g : ℚ) + 1) / sr * 2 ^ 32 = (g : ℚ) / sr * 2 ^ 32 + 1 / sr * 2 ^ 32 := by ring
    linarith

theorem due_gap (hsr : 0 < sr) (hle : sr ≤ 2 ^ 30) {α : Type} {x y : Timed α} {g k n : Nat}
    (h1 : AtFrame sr x.first x.time g) (h2 : AtFrame sr y.first y.time k)
    (h : x.due sr + ((n + 2 : ℕ) : ℚ) / sr * 2 ^ 32 ≤ y.due sr) : g + n ≤ k := by
  have hu := unit_large hsr hle
  obtain ⟨v, hv⟩ : ∃ v : ℚ, v = 1 / sr * 2 ^ 32 := ⟨_, rfl⟩
  have h3 := (at_due hsr x h1).1
  have h4 := (at_due hsr y h2).2
  have e1 : (g : ℚ) / sr * 2 ^ 32 = g * v := by rw [hv]; ring
  have e2 : ((k : ℚ) + 1) / sr * 2 ^ 32 = (k + 1) * v := by rw [hv]; ring
  have e3 : ((n + 2 : ℕ) : ℚ) / sr * 2 ^ 32 = (n + 2) * v := by rw [hv]; push_cast; ring
  rw [e1] at h3
  rw [e2] at h4
  rw [e3] at h
  rw [← hv] at hu
  by_contra hc
  have hc' : (k : ℚ) + 1 ≤ g + n := by exact_mod_cast (by omega : k + 1 ≤ g + n)
  nlinarith

/-- The note of a click; `what` is the number of the event. -/
def Timed.event (x : Timed ℕ) : Nat × AdsrEvent := (x.first, ⟨x.what, x.time, .noteOn⟩)

theorem click_frames (clicks : List (Timed ℕ)) : ∀ schedule : List (Nat × Nat × AdsrEvent),
    schedule.map (fun x => x.2) = clicks.map Timed.event → (∀ x ∈ schedule, AtFrame sr x.2.1 x.2.2.time x.1) →
    ∃ frames : List ℕ, List.Forall₂ (fun x g => AtFrame sr x.first x.time g) clicks frames ∧
      schedule.map (fun x => (x.1, x.2.2.eventType)) = clickEvents frames := by
  induction clicks with
  | nil =>
    intro schedule h _
    obtain rfl : schedule = [] := by simpa using h
    exact ⟨[], .nil, rfl⟩
  | cons x rest ih =>
    intro schedule h hf
    match schedule, h, hf with
    | [], h, _ => simp at h
    | (g, f, e) :: sch, h, hf =>
      simp only [List.map_cons, List.cons.injEq, Timed.event, Prod.mk.injEq] at h
      obtain ⟨⟨rfl, rfl⟩, h3⟩ := h
      obtain ⟨frames, i1, i2⟩ := ih sch h3 fun y hy => hf y (List.mem_cons_of_mem _ hy)
      refine ⟨g :: frames, .cons (hf (g, x.first, _) List.mem_cons_self) i1, ?_⟩
      simp only [List.map_cons, clickEvents, i2]

theorem forall_pairwise {α β : Type} {R : α → β → Prop} {S : α → α → Prop} {T : β → β → Prop}
    (hRT : ∀ x y g k, R x g → R y k → S x y → T g k) {l : List α} {m : List β} (h : List.Forall₂ R l m) (hs : l.Pairwise S) :
    m.Pairwise T := by
  induction h with
  | nil => exact .nil
  | @cons x g l m h1 h2 ih =>
    obtain ⟨s1, s2⟩ := List.pairwise_cons.mp hs
    refine List.pairwise_cons.mpr ⟨?_, ih s2⟩
    intro k hk
    obtain ⟨j, hj, rfl⟩ := List.mem_iff_getElem.mp hk
    have hl := h2.length_eq
    have := (List.forall₂_iff_get.mp h2).2 j (by omega) hj
    exact hRT _ _ _ _ h1 this (s1 _ (List.getElem_mem _))

/-- The gains of clicks. -/
theorem clicks_gain (hsr : 0 < sr) (hle : sr ≤ 2 ^ 30) {sequence : ℕ → ℕ} (hseq : StrictMono sequence) (clicks : List (Timed ℕ))
    (hnum : (sequence 2 :: clicks.map Timed.what).Pairwise (· < ·)) (h0 : ∀ x ∈ clicks, 0 ≤ x.time)
    (ht : clicks.Pairwise fun x y => x.time ≤ y.time)
    (hsp : Spaced sr (stageFrames a sr + stageFrames d sr + 2) clicks) {schedule : List (Nat × Nat × AdsrEvent)}
    (h : AdsrScheduled sr ((settings sequence a d).map (fun e => (0, e)) ++ clicks.map Timed.event) schedule) :
    ∃ (frames : List ℕ) (gain : ℕ → ℝ), List.Forall₂ (fun x g => AtFrame sr x.first x.time g) clicks frames ∧
      (∀ F, (∀ x ∈ frames.head?, F < x) → gain F = 0) ∧
      Shapes gain (stageFrames a sr) (stageFrames d sr) frames ∧
      ∀ n, ∀ F < n, (adsrValues (schedule.map fun x => (x.1, x.2.2.eventType)) 0 n
        (AdsrEnvelope.new sr 0 0 (Level.fromDb 0) 0)).2.getD F 0 = gain F := by
  have s0 : sequence 0 < sequence 1 := hseq (by omega)
  have s1 : sequence 1 < sequence 2 := hseq (by omega)
  obtain ⟨m1, m2⟩ := List.pairwise_cons.mp hnum
  have ho := in_order h (by
    simp only [settings, List.map_cons, List.map_nil, List.cons_append, List.nil_append, List.pairwise_cons,
      List.mem_cons, List.mem_map]
    have key : ∀ (j : ℕ) (ty : AdsrEventType), j ≤ 2 → ∀ x, (∃ c, c ∈ clicks ∧ Timed.event c = x) →
        0 ≤ x.1 ∧ Before ⟨sequence j, 0, ty⟩ x.2 ∧ sequence j < x.2.sequenceNumber := by
      rintro j ty hj x ⟨c, hc, rfl⟩
      have h1 := h0 c hc
      have h2 := m1 c.what (List.mem_map_of_mem hc)
      have h3 : sequence j ≤ sequence 2 := hseq.monotone hj
      refine ⟨Nat.zero_le _, ?_, ?_⟩
      · unfold Before Timed.event
        dsimp only
        omega
      · show sequence j < c.what
        omega
    refine ⟨?_, ?_, ?_, ?_⟩
    · rintro x (rfl | rfl | hx)
      · unfold Before; dsimp only; omega
      · unfold Before; dsimp only; omega
      · exact key 0 _ (by omega) x hx
    · rintro x (rfl | hx)
      · unfold Before; dsimp only; omega
      · exact key 1 _ (by omega) x hx
    · intro x hx
      exact key 2 _ (by omega) x hx
    · rw [List.pairwise_map]
      rw [List.pairwise_map] at m2
      refine ((hsp.and ht).and m2).imp ?_
      rintro x y ⟨⟨⟨h1, _⟩, h2⟩, h3⟩
      refine ⟨h1, ?_, h3⟩
      unfold Before Timed.event
      dsimp only
      omega)
  have hfr := h.frames
  match schedule, ho, hfr with
  | [], ho, _ => simp [settings] at ho
  | [_], ho, _ => simp [settings] at ho
  | [_, _], ho, _ => simp [settings] at ho
  | (g0, f0, e0) :: (g1, f1, e1) :: (g2, f2, e2) :: sch, ho, hfr =>
    simp only [settings, List.cons_append, List.nil_append, List.map_cons, List.map_nil, List.cons.injEq,
      Prod.mk.injEq] at ho
    obtain ⟨⟨rfl, rfl⟩, ⟨rfl, rfl⟩, ⟨rfl, rfl⟩, ho⟩ := ho
    simp only [List.mem_cons, forall_eq_or_imp] at hfr
    obtain ⟨z0, z1, z2, hfr⟩ := hfr
    obtain rfl := at_zero hsr hle z0
    obtain rfl := at_zero hsr hle z1
    obtain rfl := at_zero hsr hle z2
    obtain ⟨frames, i1, i2⟩ := click_frames clicks sch ho hfr
    have hgap := forall_pairwise (T := fun g k => g + (stageFrames a sr + stageFrames d sr) ≤ k)
      (fun x y g k hx hy hs => due_gap hsr hle hx hy hs.2) i1 hsp
    obtain ⟨e, he⟩ : ∃ e : AdsrEnvelope, e = (((AdsrEnvelope.new sr 0 0 (Level.fromDb 0) 0).apply (.setAttack a)).apply
      (.setDecay d)).apply (.setSustain ⟨0⟩) := ⟨_, rfl⟩
    have hq : Rest sr a d 0 e := by
      rw [he]
      exact ⟨⟨rfl, rfl, rfl, rfl⟩, .inl rfl, rfl, rfl⟩
    obtain ⟨k1, k2⟩ := clicks_shape hsr frames 0 e
      (fun F => (adsrValues (clickEvents frames) 0 (F + 1) e).1.envelope) hq (by
        rw [List.pairwise_cons]
        exact ⟨fun _ _ => Nat.zero_le _, hgap.imp fun hab => by omega⟩) hgap (fun F _ => rfl)
    refine ⟨frames, _, i1, fun F hF => k1 F (Nat.zero_le _) hF, k2, ?_⟩
    intro n F hF
    have hn : 0 < n := by omega
    simp only [List.map_cons, i2]
    have c0 := fun l => adsrValues_cons (0, .setAttack a) l n hn (AdsrEnvelope.new sr 0 0 (Level.fromDb 0) 0)
    have c1 := fun l => adsrValues_cons (0, .setDecay d) l n hn
      ((AdsrEnvelope.new sr 0 0 (Level.fromDb 0) 0).apply (.setAttack a))
    have c2 := fun l => adsrValues_cons (0, .setSustain ⟨0⟩) l n hn
      (((AdsrEnvelope.new sr 0 0 (Level.fromDb 0) 0).apply (.setAttack a)).apply (.setDecay d))
    dsimp only at c0 c1 c2 ⊢
    rw [c0, c1, c2, ← he, adsrValues_getD _ _ _ _ _ hF]

end Clicks
end Rawdio
