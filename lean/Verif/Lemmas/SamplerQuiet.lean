import Verif.Lemmas.SamplerHistory

/-! # A sampler that has been stopped, and one that plays its sample once -/

namespace Rawdio

variable {S : Type}

/-- The voice is stopped or will be after `m` frames. -/
def Voice.EndsWithin (fade : Fade S) (m : Nat) (v : Voice) : Prop :=
  v.phase = .stopped ∨ ∃ k, v.phase = .fadingOut k ∧ fade.values.length ≤ k + m

theorem Voice.heard_ends [One S] {fade : Fade S} {m : Nat} {v : Voice} (h : v.EndsWithin fade m) {i : Nat}
    (hi : m ≤ i) : v.heard fade i = .silent := by
  obtain ⟨p, ph⟩ := v
  rcases h with h | ⟨k, h, hk⟩
  · simp only at h; subst h; rfl
  · simp only at h; subst h
    simp only [heard]
    rw [if_neg (by omega)]

theorem Voice.after_ends {fade : Fade S} {m : Nat} {v : Voice} (h : v.EndsWithin fade m) (n : Nat) :
    (v.after fade n).EndsWithin fade (m - n) := by
  obtain ⟨p, ph⟩ := v
  rcases h with h | ⟨k, h, hk⟩
  · simp only at h; subst h; exact Or.inl rfl
  · simp only at h; subst h
    by_cases hn : k + n < fade.values.length
    · rw [after_out_lt fade hn]; exact Or.inr ⟨_, rfl, by omega⟩
    · rw [after_out_ge fade hn]; exact Or.inl rfl

theorem Voice.stop_ends {fade : Fade S} (v : Voice) : v.stop.EndsWithin fade fade.values.length := by
  obtain ⟨p, ph⟩ := v
  cases ph with
  | stopped => exact Or.inl rfl
  | playing => exact Or.inr ⟨0, rfl, by omega⟩
  | fadingIn k => exact Or.inr ⟨0, rfl, by omega⟩
  | fadingOut k => exact Or.inr ⟨k, rfl, by omega⟩

theorem Voice.stop_of_ends {fade : Fade S} {m : Nat} {v : Voice} (h : v.EndsWithin fade m) : v.stop = v := by
  obtain ⟨p, ph⟩ := v
  rcases h with h | ⟨k, h, hk⟩ <;> (simp only at h; subst h; rfl)

theorem mixVoices_silent [Add S] [Mul S] [One S] {fade : Fade S} {src : Grid S} {vs : List Voice} {m : Nat}
    (h : ∀ v ∈ vs, v.EndsWithin fade m) {i : Nat} (hi : m ≤ i) (c : Nat) (o : S) :
    mixVoices fade src vs c i o = o := by
  induction vs generalizing o with
  | nil => rfl
  | cons v vs ih =>
    simp only [mixVoices, List.foldl_cons] at *
    rw [Voice.heard_ends (h v List.mem_cons_self) hi]
    exact ih (fun u hu => h u (List.mem_cons_of_mem _ hu)) _

namespace Sampler

open TimedEvent EventProcessor

/-- A sampler without loop that adds nothing to the output after `m` frames. -/
structure Quiet (m : Nat) (s : Sampler S) : Prop where
  ok : s.Ok
  loop : s.loopPoints = none
  ends : s.Done ∨ ∀ v ∈ s.voices, v.EndsWithin s.fade m

theorem quiet_events {m : Nat} {s : Sampler S} (h : s.Quiet m) (ev : EventProcessor SamplerEvent) :
    ({ s with events := ev } : Sampler S).Quiet m :=
  ⟨⟨h.ok.fade, h.ok.rate, h.ok.rate', h.ok.voices⟩, h.loop, h.ends⟩

theorem quiet_event {m : Nat} {s : Sampler S} (h : s.Quiet m) {e : SamplerEvent} (he : e.Quieting)
    (t : Int) : (s.processEvent e t).Quiet m := by
  have hstop : ∀ s : Sampler S, s.Quiet m → s.stop.Quiet m := by
    intro s h
    refine ⟨stop_ok h.ok, h.loop, ?_⟩
    rcases h.ends with h1 | h1
    · exact Or.inl ⟨h1.1, h1.2⟩
    · right
      intro v hv
      simp only [stop, List.mem_map] at hv
      obtain ⟨u, hu, rfl⟩ := hv
      rw [Voice.stop_of_ends (h1 u hu)]
      exact h1 u hu
  have hcancel : ∀ s : Sampler S, s.Quiet m → ({ s with loopPoints := none } : Sampler S).Quiet m := by
    intro s h
    refine ⟨⟨h.ok.fade, h.ok.rate, h.ok.rate', h.ok.voices⟩, rfl, ?_⟩
    rcases h.ends with h1 | h1
    · have e1 : ({ s with loopPoints := none } : Sampler S) = s := by
        have := h.loop
        cases s; simp only at this; subst this; rfl
      rw [e1]
      exact Or.inl h1
    · exact Or.inr h1
  unfold processEvent
  rcases he with he | he | he
  · rw [he]; exact hstop s h
  · rw [he]; exact hcancel s h
  · rw [he]; exact hcancel _ (hstop s h)

section Render

variable [Add S] [Mul S] [One S]

theorem quiet_part {m : Nat} {s : Sampler S} (h : s.Quiet m) (out : Grid S) (p k : Nat)
    (hw : p + k ≤ out.frames) :
    ∃ f t out', processSample ⟨p, k⟩ f 0 s out = .ok (t, out') ∧ t.Quiet (m - k) ∧ SameRest s t ∧
      out'.channels = out.channels ∧ out'.frames = out.frames ∧
      ∀ c f, p + m ≤ f → out'.val c f = out.val c f := by
  obtain ⟨fuel, t, out', e1, e2, e3, e4, e5⟩ := processSample_returns ⟨p, k⟩ k _ 0 s out h.ok
    (by rw [h.loop]; intro a b hab; cases hab) (by simp only; omega) (by simp only; omega) (le_refl _)
  refine ⟨fuel, t, out', e1, ?_, e3, e4, e5, ?_⟩
  all_goals
    obtain ⟨j, h1, h2, _, h3, _, _, h6⟩ := processSample_plain ⟨p, k⟩ fuel 0 s out t out' h.ok h.loop
      (by simp only; omega) (Nat.zero_le _) e1
  · refine ⟨e2, e3.loopPoints.trans h.loop, ?_⟩
    rcases h.ends with hd | hv
    · left
      by_cases hk : 0 < k
      · have hz : processSample ⟨p, k⟩ (0 + 1) 0 s out = .ok (s, out) :=
          processSample_break (by simpa using hk) (renderFrameCount_done hd _) h.loop
        have h7 := processSample_mono _ _ _ _ _ _ hz fuel
        have h8 := processSample_mono _ _ _ _ _ _ e1 (0 + 1)
        rw [Nat.add_comm fuel, h7] at h8
        injection h8 with h8
        injection h8 with h8 _
        rw [← h8]; exact hd
      · rw [processSample_done (by simp only; omega)] at e1
        injection e1 with e1
        injection e1 with e1 _
        rw [← e1]; exact hd
    · rcases h6 with h6 | h6
      · right
        simp only [Nat.sub_zero] at h6
        intro v hv'
        rw [h2, List.mem_map] at hv'
        obtain ⟨u, hu, rfl⟩ := hv'
        rw [e3.fade, ← h6]
        exact Voice.after_ends (hv u hu) j
      · exact Or.inl h6
  · intro c f hf
    rcases h.ends with hd | hv
    · by_cases hk : 0 < k
      · have hz : processSample ⟨p, k⟩ (0 + 1) 0 s out = .ok (s, out) :=
          processSample_break (by simpa using hk) (renderFrameCount_done hd _) h.loop
        have h7 := processSample_mono _ _ _ _ _ _ hz fuel
        have h8 := processSample_mono _ _ _ _ _ _ e1 (0 + 1)
        rw [Nat.add_comm fuel, h7] at h8
        injection h8 with h8
        injection h8 with _ h8
        rw [← h8]
      · rw [processSample_done (by simp only; omega)] at e1
        injection e1 with e1
        injection e1 with _ e1
        rw [← e1]
    · simp only [Nat.add_zero] at h3
      rw [h3, mixed, Grid.changed_mk]
      split
      · exact mixVoices_silent hv (by omega) c _
      · rfl

/-- A block of a sampler that has been stopped. -/
theorem quiet_loop {m : Nat} {s : Sampler S} (h : s.Quiet m) (out : Grid S) (start : Int)
    (hn : 0 < out.frames) (hlen : out.frames * s.sampleRate ≤ 2 ^ 33) (pending : List SamplerEvent)
    (hs : InTimeOrder pending) (hq : ∀ e ∈ pending, e.Quieting) :
    ∃ f t out', blockLoop f s out start pending = .ok ((t, out'), pending.filter (fun e =>
        !decide (e.time < Timestamp.incrementedBySamples start out.frames s.sampleRate))) ∧
      t.Quiet (m - out.frames) ∧ SameFixed s t ∧ out'.channels = out.channels ∧
      out'.frames = out.frames ∧ ∀ c f, m ≤ f → out'.val c f = out.val c f := by
  obtain ⟨f, ⟨t, out'⟩, h1, h2, h3, h4, h5, h6⟩ := loop_inv renderPart_mono applyEvent h.ok.rate start hn
    hlen
    (fun p (x : Sampler S × Grid S) => x.1.Quiet (m - p) ∧ SameFixed s x.1 ∧
      x.2.channels = out.channels ∧ x.2.frames = out.frames ∧ ∀ c f, m ≤ f → x.2.val c f = out.val c f)
    (by
      rintro ⟨x, o⟩ p k ⟨g1, g2, g3, g4, g5⟩ hk
      simp only at g1 g2 g3 g4 g5
      obtain ⟨fuel, t, o', e1, e2, e3, e4, e5, e6⟩ := quiet_part g1 o p k (by omega)
      refine ⟨fuel, (t, o'), ?_, ?_, g2.trans e3.fixed, e4.trans g3, e5.trans g4, ?_⟩
      · rw [renderPart_eq _ _ _ _ (by simp only; omega)]; exact e1
      · simpa [Nat.sub_sub] using e2
      · intro c f hf
        rcases Nat.lt_or_ge f (p + (m - p)) with h1 | h1
        · -- frames before the part are not touched
          have hp : f < p := by omega
          obtain ⟨j, _, _, _, h3, _, _, _⟩ := processSample_plain ⟨p, k⟩ fuel 0 x o t o' g1.ok g1.loop
            (by simp only; omega) (Nat.zero_le _) e1
          simp only [Nat.add_zero] at h3 ⊢
          rw [h3, mixed, Grid.changed_mk, if_neg (by omega)]
          exact g5 c f hf
        · exact (e6 c f h1).trans (g5 c f hf))
    pending hs
    (by
      rintro ⟨x, o⟩ e he _ t ⟨g1, g2, g3, g4, g5⟩
      exact ⟨_, rfl, quiet_event g1 (hq e he) t, g2.trans (processEvent_fixed x e t), g3, g4, g5⟩)
    (s, out) ⟨h, SameFixed.refl s, rfl, rfl, fun _ _ _ => rfl⟩
  exact ⟨f, t, out', h1, h2, h3, h4, h5, h6⟩

/-- What is known of the events of a sampler that has been stopped. -/
structure QuietEvents (s : Sampler S) : Prop where
  sorted : InTimeOrder s.events.pending
  pending : ∀ e ∈ s.events.pending, e.Quieting
  channel : s.events.channel = []

theorem quiet_run (bs : List (SamplerBlock S)) : ∀ {m : Nat} {s : Sampler S}, s.Quiet m → s.QuietEvents →
    BlocksOk s.sampleRate bs → (∀ b ∈ bs, ∀ e ∈ b.sent, e.Quieting) →
    ∃ f t outs, run f s bs = .ok (t, outs) ∧ SilentFrom m bs outs ∧
      t.Quiet (m - (bs.map (fun b => b.out.frames)).sum) := by
  induction bs with
  | nil => intro m s h _ _ _; exact ⟨0, s, [], rfl, trivial, by simpa using h⟩
  | cons b bs ih =>
    intro m s h hq hb he
    have hsend : (s.sendAll b.sent).Quiet m := by
      rw [sendAll_eq]
      exact ⟨⟨h.ok.fade, h.ok.rate, h.ok.rate', h.ok.voices⟩, h.loop, h.ends⟩
    have hsort : InTimeOrder (s.sendAll b.sent).events.receiveEvents.pending := by
      apply receive_sorted; rw [sendAll_eq]; exact hq.sorted
    have hmem : ∀ e ∈ (s.sendAll b.sent).events.receiveEvents.pending, e.Quieting := by
      intro e hm
      rw [sendAll_eq] at hm
      rcases receive_mem _ e hm with h1 | h1
      · exact hq.pending e h1
      · simp only [hq.channel, List.nil_append] at h1
        exact he b List.mem_cons_self e h1
    have hrate : (s.sendAll b.sent).sampleRate = s.sampleRate := by rw [sendAll_eq]
    obtain ⟨f, t, out', h1, h2, h3, h4, h5, h6⟩ := quiet_loop
      (quiet_events hsend (s.sendAll b.sent).events.receiveEvents) b.out b.start
      (hb b List.mem_cons_self).1 (by rw [hrate]; exact (hb b List.mem_cons_self).2) _ hsort hmem
    obtain ⟨t', ht'⟩ : ∃ t' : Sampler S, t' = { t with
        events := { (s.sendAll b.sent).events.receiveEvents with
          pending := (s.sendAll b.sent).events.receiveEvents.pending.filter (fun e =>
            !decide (e.time < Timestamp.incrementedBySamples b.start b.out.frames
              (s.sendAll b.sent).sampleRate)) } } := ⟨_, rfl⟩
    have hp : (s.sendAll b.sent).processAudio f b.out b.start = .ok (t', out') := by
      rw [processAudio_eq, h1, ht']; rfl
    have hq' : t'.Quiet (m - b.out.frames) := by
      rw [ht']; exact ⟨⟨h2.ok.fade, h2.ok.rate, h2.ok.rate', h2.ok.voices⟩, h2.loop, h2.ends⟩
    have he' : t'.QuietEvents := by
      rw [ht']
      exact ⟨hsort.filter _, fun e he => hmem e (List.mem_of_mem_filter he), receive_channel _⟩
    have hr' : t'.sampleRate = s.sampleRate := by rw [ht']; exact h3.sampleRate.trans hrate
    obtain ⟨g, u, outs, h7, h8, h9⟩ := ih hq' he'
      (by rw [hr']; exact fun c hc => hb c (List.mem_cons_of_mem _ hc))
      (fun c hc => he c (List.mem_cons_of_mem _ hc))
    refine ⟨f + g, u, out' :: outs, ?_, ⟨⟨h4, h5, h6⟩, h8⟩, ?_⟩
    · rw [run]
      simp only [bind]
      rw [processAudio_mono hp g]
      simp only [Except.bind]
      rw [Nat.add_comm f g, run_mono bs h7 f]
    · rw [List.map_cons, List.sum_cons, ← Nat.sub_sub]; exact h9

/-- When the events due at the start of a block leave the sampler without anything to play, and no later
event starts anything, it is silent after `m` frames. -/
theorem quiet_from {s s' : Sampler S} {b : SamplerBlock S} {bs : List (SamplerBlock S)} {m : Nat}
    {rest : List SamplerEvent} (hs' : s'.Quiet m) (hfix : SameFixed s s')
    (hloop : ∀ f, blockLoop f { s.sendAll b.sent with
        events := (s.sendAll b.sent).events.receiveEvents } b.out b.start
      (s.sendAll b.sent).events.receiveEvents.pending = blockLoop f s' b.out b.start rest)
    (hsort : InTimeOrder rest) (hmem : ∀ e ∈ rest, e.Quieting) (hb : BlocksOk s.sampleRate (b :: bs))
    (he : ∀ c ∈ bs, ∀ e ∈ c.sent, e.Quieting) :
    ∃ f t outs, run f s (b :: bs) = .ok (t, outs) ∧ SilentFrom m (b :: bs) outs := by
  obtain ⟨f, t, out', h1, h2, h3, h4, h5, h6⟩ := quiet_loop hs' b.out b.start
    (hb b List.mem_cons_self).1 (by rw [hfix.sampleRate]; exact (hb b List.mem_cons_self).2) _ hsort hmem
  obtain ⟨t', ht'⟩ : ∃ t' : Sampler S, t' = { t with
      events := { (s.sendAll b.sent).events.receiveEvents with
        pending := rest.filter (fun e =>
          !decide (e.time < Timestamp.incrementedBySamples b.start b.out.frames s'.sampleRate)) } } :=
    ⟨_, rfl⟩
  have hp : (s.sendAll b.sent).processAudio f b.out b.start = .ok (t', out') := by
    rw [processAudio_eq, hloop, h1, ht']; rfl
  have hq' : t'.Quiet (m - b.out.frames) := by
    rw [ht']; exact ⟨⟨h2.ok.fade, h2.ok.rate, h2.ok.rate', h2.ok.voices⟩, h2.loop, h2.ends⟩
  have he' : t'.QuietEvents := by
    rw [ht']
    exact ⟨hsort.filter _, fun e he => hmem e (List.mem_of_mem_filter he), receive_channel _⟩
  have hr' : t'.sampleRate = s.sampleRate := by rw [ht']; exact h3.sampleRate.trans hfix.sampleRate
  obtain ⟨g, u, outs, h7, h8, _⟩ := quiet_run bs hq' he'
    (by rw [hr']; exact fun c hc => hb c (List.mem_cons_of_mem _ hc)) he
  refine ⟨f + g, u, out' :: outs, ?_, ⟨h4, h5, h6⟩, h8⟩
  rw [run]
  simp only [bind]
  rw [processAudio_mono hp g]
  simp only [Except.bind]
  rw [Nat.add_comm f g, run_mono bs h7 f]

omit [Add S] [Mul S] [One S] in
theorem stop_quiet {s : Sampler S} (h : s.Ok) (hl : s.loopPoints = none) :
    s.stop.Quiet s.fade.values.length := by
  refine ⟨stop_ok h, hl, Or.inr ?_⟩
  intro v hv
  simp only [stop, List.mem_map] at hv
  obtain ⟨u, _, rfl⟩ := hv
  exact Voice.stop_ends u

/-- Events that start nothing are applied one after the other until playback is stopped. -/
theorem blockLoop_stop {e : SamplerEvent} (hstop : e.eventType = .stop) {out : Grid S} {start : Int}
    (hn : 0 < out.frames) (ht : e.time ≤ start) (rest pre : List SamplerEvent) :
    ∀ {s : Sampler S}, s.Ok → s.loopPoints = none → (∀ d ∈ pre, d.Quieting ∧ d.time ≤ start) →
    ∃ s' : Sampler S, s'.Quiet s.fade.values.length ∧ SameFixed s s' ∧
      ∀ f, blockLoop f s out start (pre ++ e :: rest) = blockLoop f s' out start rest := by
  induction pre with
  | nil =>
    intro s h hl _
    refine ⟨s.stop, stop_quiet h hl, (stop_same s).fixed, ?_⟩
    intro f
    have : s.processEvent e start = s.stop := by unfold processEvent; rw [hstop]
    rw [List.nil_append, blockLoop_first h.rate h.rate' hn ht f, this]
  | cons d pre ih =>
    intro s h hl hp
    have hd := hp d List.mem_cons_self
    have hl' : (s.processEvent d start).loopPoints = none := by
      unfold processEvent
      rcases hd.1 with h1 | h1 | h1 <;> rw [h1]
      exact hl
    have hf := processEvent_fixed s d start
    obtain ⟨s', h1, h2, h3⟩ := ih (processEvent_ok h d start) hl'
      (fun c hc => hp c (List.mem_cons_of_mem _ hc))
    refine ⟨s', by rw [← hf.fade]; exact h1, hf.trans h2, ?_⟩
    intro f
    rw [List.cons_append, blockLoop_first h.rate h.rate' hn hd.2 f, h3]

end Render
end Sampler
end Rawdio
