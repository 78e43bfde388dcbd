import Verif.Lemmas.SamplerRun

/-! # Invariants of the histories of a sampler -/

namespace Rawdio
namespace Sampler

open TimedEvent EventProcessor

variable {S : Type}

/-- The active voice sounds. -/
def ActiveOk (s : Sampler S) : Prop :=
  ∀ i, s.activeVoice = some i → ∃ v, s.voices[i]? = some v ∧ v.Sounding

theorem startFromPosition_sounding (p : Nat) : (Voice.startFromPosition p).Sounding := by
  unfold Voice.startFromPosition Voice.Sounding
  by_cases h : p = 0 <;> simp [h]

theorem stop_active (s : Sampler S) : s.stop.ActiveOk := by intro i h; cases h

theorem takeVoice_active (s : Sampler S) (p : Nat) : (s.takeVoice p).ActiveOk := by
  unfold takeVoice
  simp only
  split
  · rename_i i hi
    intro j hj
    cases hj
    refine ⟨Voice.startFromPosition p, ?_, startFromPosition_sounding p⟩
    have := List.findIdx?_eq_some_iff_getElem.mp hi
    obtain ⟨h1, _⟩ := this
    simp [List.getElem?_set, h1]
  · exact stop_active s

theorem assignVoice_active {s : Sampler S} (h : s.ActiveOk) (p : Int) : (s.assignVoice p).ActiveOk := by
  unfold assignVoice
  simp only
  split
  · exact h
  · exact takeVoice_active s _

theorem finishSample_active {s : Sampler S} (h : s.ActiveOk) : s.finishSample.ActiveOk := by
  unfold finishSample
  split
  · exact assignVoice_active (s := { s with completedLoops := s.completedLoops + 1 }) h _
  · exact h

theorem after_sounding (fade : Fade S) {v : Voice} (h : v.Sounding) (n : Nat) :
    (v.after fade n).Sounding := by
  obtain ⟨p, ph⟩ := v
  rcases h with h | ⟨k, h⟩
  · simp only at h; subst h; exact Or.inl rfl
  · simp only at h; subst h
    by_cases hk : k + n < fade.values.length
    · rw [Voice.after_in_lt fade hk]; exact Or.inr ⟨_, rfl⟩
    · rw [Voice.after_in_ge fade hk]; exact Or.inl rfl

theorem advanced_active {s : Sampler S} (h : s.ActiveOk) (n : Nat) : (s.advanced n).ActiveOk := by
  intro i hi
  obtain ⟨v, h1, h2⟩ := h i hi
  refine ⟨v.after s.fade n, ?_, after_sounding _ h2 n⟩
  simp [advanced, h1]

theorem processEvent_active {s : Sampler S} (h : s.ActiveOk) (e : SamplerEvent) (t : Int) :
    (s.processEvent e t).ActiveOk := by
  unfold processEvent
  split
  · exact assignVoice_active h _
  · exact assignVoice_active h _
  · exact stop_active s
  · exact h
  · exact h
  · exact stop_active s

/-- What holds in every state of a history with proper loops. -/
structure Good (s : Sampler S) : Prop where
  ok : s.Ok
  active : s.ActiveOk
  proper : Proper s.loopPoints
  sorted : InTimeOrder s.events.pending
  pending : ∀ e ∈ s.events.pending, ProperEvent e
  channel : s.events.channel = []

theorem new_good (sr : Nat) (h0 : 0 < sr) (h1 : sr < 2 ^ 32) (buffer : Grid S) (fade : Fade S)
    (hL : 0 < fade.values.length) : (new sr buffer fade).Good where
  ok := ⟨hL, h0, h1, by
    intro v hv
    have := List.eq_of_mem_replicate hv
    subst this; trivial⟩
  active := by intro i h; cases h
  proper := by intro a b h; cases h
  sorted := List.Pairwise.nil
  pending := by intro e he; cases he
  channel := rfl

theorem receive_mem {E : Type} [TimedEvent E] (p : EventProcessor E) (e : E)
    (h : e ∈ p.receiveEvents.pending) : e ∈ p.pending ∨ e ∈ p.channel := by
  unfold receiveEvents at h
  split at h
  · exact Or.inl h
  · rename_i es hne
    have h' := List.mem_mergeSort.mp h
    have : ∀ (es q : List E), e ∈ es.foldl push q → e ∈ q ∨ e ∈ es := by
      intro es
      induction es with
      | nil => intro q h; exact Or.inl h
      | cons x es ih =>
        intro q h
        rcases ih _ h with h1 | h1
        · unfold push at h1
          split at h1
          · exact Or.inr (by rw [List.mem_singleton] at h1; rw [h1]; exact List.mem_cons_self)
          · rcases List.mem_append.mp h1 with h2 | h2
            · exact Or.inl h2
            · exact Or.inr (by rw [List.mem_singleton] at h2; rw [h2]; exact List.mem_cons_self)
        · exact Or.inr (List.mem_cons_of_mem _ h1)
    exact this _ _ h'

theorem receive_channel {E : Type} [TimedEvent E] (p : EventProcessor E) :
    p.receiveEvents.channel = [] := by
  unfold receiveEvents
  split
  · rename_i h; exact h
  · rfl

section Render

variable [Add S] [Mul S] [One S]

/-- `processSample_returns` with the active voice. -/
theorem processSample_active (w : Window) (fuel : Nat) : ∀ (fp : Nat) (s : Sampler S) (out : Grid S)
    (t : Sampler S) (out' : Grid S), s.Ok → s.ActiveOk → w.offset + w.count ≤ out.frames →
    processSample w fuel fp s out = .ok (t, out') → t.ActiveOk := by
  induction fuel with
  | zero =>
    intro fp s out t out' hs ha hw h
    rw [processSample] at h
    split at h
    · cases h
    · cases h; exact ha
  | succ fuel ih =>
    intro fp s out t out' hs ha hw h
    by_cases hfp : fp < w.count
    · by_cases hn : s.renderFrameCount (w.count - fp) = 0
      · cases hl : s.loopPoints with
        | none =>
          rw [processSample_break hfp hn hl] at h
          cases h; exact ha
        | some ab =>
          rw [processSample_loop hfp hn (by rw [hl]; rfl)] at h
          exact ih _ _ _ _ _ (finishSample_ok hs) (finishSample_active ha) hw h
      · rw [processSample_step hs hw hfp hn] at h
        exact ih _ _ _ _ _ (advanced_ok hs _) (advanced_active ha _) (by exact hw) h
    · rw [processSample_done (by omega)] at h
      cases h; exact ha

theorem good_block {s : Sampler S} (h : s.Good) (b : SamplerBlock S) (hn : 0 < b.out.frames)
    (hlen : b.out.frames * s.sampleRate ≤ 2 ^ 33) (hb : ∀ e ∈ b.sent, ProperEvent e) :
    ∃ f t out', (s.sendAll b.sent).processAudio f b.out b.start = .ok (t, out') ∧ t.Good ∧
      SameFixed s t := by
  have hmem : ∀ e ∈ (s.sendAll b.sent).events.receiveEvents.pending, ProperEvent e := by
    intro e he
    rw [sendAll_eq] at he
    rcases receive_mem _ e he with h1 | h1
    · exact h.pending e h1
    · simp only [h.channel, List.nil_append] at h1
      exact hb e h1
  have hfix : SameFixed s (s.sendAll b.sent) := by rw [sendAll_eq]; exact ⟨rfl, rfl, rfl⟩
  have hsort : InTimeOrder (s.sendAll b.sent).events.pending := by rw [sendAll_eq]; exact h.sorted
  obtain ⟨f, t, out', h1, h2⟩ := processAudio_inv (s := s.sendAll b.sent) (out := b.out)
    (start := b.start) (by rw [hfix.sampleRate]; exact h.ok.rate) hn (by rw [hfix.sampleRate]; exact hlen)
    hsort
    (fun _ x => x.1.Ok ∧ x.1.ActiveOk ∧ Proper x.1.loopPoints ∧ x.2.frames = b.out.frames ∧
      SameFixed s x.1)
    (by
      rintro ⟨x, o⟩ p k ⟨g1, g2, g3, g4, g5⟩ hk
      simp only at g1 g2 g3 g4 g5
      obtain ⟨fuel, t, o', e1, e2, e3, _, e5⟩ := processSample_returns ⟨p, k⟩ k _ 0 x o g1 g3
        (by simp only; omega) (by simp only; omega) (le_refl _)
      refine ⟨by simp only; omega, fuel, (t, o'), e1, e2, ?_, ?_, ?_, g5.trans e3.fixed⟩
      · exact processSample_active _ _ _ _ _ _ _ g1 g2 (by simp only; omega) e1
      · rw [e3.loopPoints]; exact g3
      · exact e5.trans g4)
    (by
      rintro ⟨x, o⟩ e he _ t ⟨g1, g2, g3, g4, g5⟩
      exact ⟨processEvent_ok g1 e t, processEvent_active g2 e t, processEvent_proper g3 (hmem e he) t, g4,
        g5.trans (processEvent_fixed x e t)⟩)
    (by
      have ho := h.ok
      have ha := h.active
      have hp := h.proper
      refine ⟨?_, ?_, ?_, rfl, ⟨hfix.fade, hfix.buffer, hfix.sampleRate⟩⟩
      · rw [sendAll_eq]; exact ⟨ho.fade, ho.rate, ho.rate', ho.voices⟩
      · rw [sendAll_eq]; exact ha
      · rw [sendAll_eq]; exact hp)
  obtain ⟨g1, g2, g3, _, g5⟩ := h2
  refine ⟨f, _, out', h1, ⟨⟨g1.fade, g1.rate, g1.rate', g1.voices⟩, g2, g3, ?_, ?_, ?_⟩,
    ⟨g5.fade, g5.buffer, g5.sampleRate⟩⟩
  · exact (receive_sorted _ hsort).filter _
  · intro e he
    exact hmem e (List.mem_of_mem_filter he)
  · exact receive_channel _

/-- A history with proper loops returns, and the state afterwards is a good one. -/
theorem good_run (bs : List (SamplerBlock S)) : ∀ {s : Sampler S}, s.Good → BlocksOk s.sampleRate bs →
    (∀ b ∈ bs, ∀ e ∈ b.sent, ProperEvent e) →
    ∃ f t outs, run f s bs = .ok (t, outs) ∧ t.Good ∧ SameFixed s t := by
  induction bs with
  | nil => intro s h _ _; exact ⟨0, s, [], rfl, h, SameFixed.refl s⟩
  | cons b bs ih =>
    intro s h hb he
    obtain ⟨f, t, out', h1, h2, h3⟩ := good_block h b (hb b List.mem_cons_self).1
      (hb b List.mem_cons_self).2 (he b List.mem_cons_self)
    obtain ⟨g, u, outs, h4, h5, h6⟩ := ih h2
      (by rw [h3.sampleRate]; exact fun c hc => hb c (List.mem_cons_of_mem _ hc))
      (fun c hc => he c (List.mem_cons_of_mem _ hc))
    refine ⟨f + g, u, out' :: outs, ?_, h5, h3.trans h6⟩
    rw [run]
    simp only [bind]
    rw [processAudio_mono h1 g]
    simp only [Except.bind]
    rw [Nat.add_comm f g, run_mono bs h4 f]

/-- The result of a history does not depend on the bound on the number of steps. -/
theorem run_unique {s : Sampler S} {bs : List (SamplerBlock S)} {f g : Nat}
    {r q : Sampler S × List (Grid S)} (h1 : run f s bs = .ok r) (h2 : run g s bs = .ok q) : r = q := by
  have a := run_mono bs h1 g
  have b := run_mono bs h2 f
  rw [Nat.add_comm g f, a] at b
  injection b

/-- The loop of `processAudio` from the start of the block, with the pending events `pending`. -/
def blockLoop (fuel : Nat) (s : Sampler S) (out : Grid S) (start : Int) (pending : List SamplerEvent) :
    Res ((Sampler S × Grid S) × List SamplerEvent) :=
  EventProcessor.loop (renderPart fuel) applyEvent s.sampleRate start out.frames pending 0 start (s, out)

theorem processAudio_eq (fuel : Nat) (s : Sampler S) (out : Grid S) (start : Int) :
    processAudio fuel s out start =
      (blockLoop fuel { s with events := s.events.receiveEvents } out start
          s.events.receiveEvents.pending).bind fun r =>
        .ok ({ r.1.1 with events := { s.events.receiveEvents with pending := r.2 } }, r.1.2) := rfl

theorem hdue {sr : Nat} (hsr : 0 < sr) (hlt : sr < 2 ^ 32) {n : Nat} (hn : 0 < n) {t start : Int}
    (ht : t ≤ start) : t < Timestamp.incrementedBySamples start n sr := by
  have h1 := Timestamp.C25_from_samples_strict sr hsr hlt 0 n (by exact_mod_cast hn)
  simp only [Int.cast_zero, Timestamp.fromSamples_zero] at h1
  unfold Timestamp.incrementedBySamples
  have h2 : (0 : Int) < Timestamp.fromSamples (n : ℚ) sr := by exact_mod_cast h1
  omega

/-- An event that is due at the first frame of a block is processed before anything else. -/
theorem blockLoop_first {s : Sampler S} {out : Grid S} {start : Int} {e : SamplerEvent}
    {rest : List SamplerEvent} (hsr : 0 < s.sampleRate) (hlt : s.sampleRate < 2 ^ 32)
    (hn : 0 < out.frames) (ht : e.time ≤ start) (fuel : Nat) :
    blockLoop fuel s out start (e :: rest) = blockLoop fuel (s.processEvent e start) out start rest := by
  have hpos : framePosition start start e.time s.sampleRate = 0 := by
    unfold framePosition
    rw [max_eq_right ht]
    simp [Timestamp.asSamples, Timestamp.asSeconds]
  have hrender : ∀ (f : Nat) (x : Sampler S × Grid S), renderPart f x 0 0 = .ok x := by
    intro f x
    rw [renderPart_eq f x 0 0 (by omega), processSample_done (by simp)]
  have hne : nextEvent s.sampleRate (e :: rest) start start out.frames = (0, some e, rest) := by
    unfold nextEvent nextEventBefore
    have : TimedEvent.time e < Timestamp.incrementedBySamples start out.frames s.sampleRate :=
      hdue hsr hlt hn ht
    simp only [this, if_true]
    have hp : framePosition start start (TimedEvent.time e) s.sampleRate = 0 := hpos
    rw [hp]
  unfold blockLoop
  rw [(processEvent_fixed s e start).sampleRate, EventProcessor.loop, if_pos hn]
  split
  · rename_i k e' r h'
    rw [hne] at h'
    cases h'
    rw [if_neg (by omega)]
    simp only [Nat.sub_zero, bind, hrender, applyEvent, Except.bind]
    have : Timestamp.incrementedBySamples start 0 s.sampleRate = start := by
      simp [Timestamp.incrementedBySamples, Timestamp.fromSamples_zero]
    rw [this]
  · rename_i h'
    rw [hne] at h'
    cases h'

/-- A block without events. -/
theorem blockLoop_nil (fuel : Nat) (s : Sampler S) (out : Grid S) (start : Int) (hn : 0 < out.frames) :
    blockLoop fuel s out start [] =
      (processSample ⟨0, out.frames⟩ fuel 0 s out).bind fun r => .ok (r, []) := by
  unfold blockLoop
  rw [EventProcessor.loop, if_pos hn]
  simp only [nextEvent, nextEventBefore, bind, Nat.sub_zero]
  rw [renderPart_eq _ _ _ _ (by simp)]

end Render
end Sampler
end Rawdio
