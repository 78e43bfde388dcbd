import Verif.Lemmas.Sampler
import Verif.Lemmas.EventLoop

/-! # Histories of a sampler -/

namespace Rawdio
namespace Sampler

open TimedEvent EventProcessor

variable {S : Type}

theorem start_same (s : Sampler S) (p d : Int) :
    (s.start p d).fade = s.fade ∧ (s.start p d).buffer = s.buffer ∧ (s.start p d).events = s.events ∧
    (s.start p d).sampleRate = s.sampleRate ∧ (s.start p d).loopPoints = s.loopPoints :=
  have h := assignVoice_same s (p + d)
  ⟨h.fade, h.buffer, h.events, h.sampleRate, h.loopPoints⟩

theorem start_ok {s : Sampler S} (h : s.Ok) (p d : Int) : (s.start p d).Ok := by
  have := assignVoice_ok h (p + d)
  exact ⟨this.fade, this.rate, this.rate', this.voices⟩

/-- The parts of a sampler that stay the same for ever. -/
structure SameFixed (s t : Sampler S) : Prop where
  fade : t.fade = s.fade
  buffer : t.buffer = s.buffer
  sampleRate : t.sampleRate = s.sampleRate

theorem SameFixed.refl (s : Sampler S) : SameFixed s s := ⟨rfl, rfl, rfl⟩

theorem SameFixed.trans {s t u : Sampler S} (h1 : SameFixed s t) (h2 : SameFixed t u) : SameFixed s u :=
  ⟨h2.fade.trans h1.fade, h2.buffer.trans h1.buffer, h2.sampleRate.trans h1.sampleRate⟩

theorem SameRest.fixed {s t : Sampler S} (h : SameRest s t) : SameFixed s t :=
  ⟨h.fade, h.buffer, h.sampleRate⟩

theorem processEvent_fixed (s : Sampler S) (e : SamplerEvent) (t : Int) :
    SameFixed s (s.processEvent e t) := by
  unfold processEvent
  split
  · have := start_same s Timestamp.zero Timestamp.zero; exact ⟨this.1, this.2.1, this.2.2.2.1⟩
  · rename_i p _
    have := start_same s p (t - e.time); exact ⟨this.1, this.2.1, this.2.2.2.1⟩
  all_goals exact ⟨rfl, rfl, rfl⟩

theorem processEvent_events (s : Sampler S) (e : SamplerEvent) (t : Int) :
    (s.processEvent e t).events = s.events := by
  unfold processEvent
  split
  · exact (start_same s _ _).2.2.1
  · exact (start_same s _ _).2.2.1
  all_goals rfl

theorem processEvent_ok {s : Sampler S} (h : s.Ok) (e : SamplerEvent) (t : Int) :
    (s.processEvent e t).Ok := by
  unfold processEvent
  split
  · exact start_ok h _ _
  · exact start_ok h _ _
  · exact stop_ok h
  · exact ⟨h.fade, h.rate, h.rate', h.voices⟩
  · exact ⟨h.fade, h.rate, h.rate', h.voices⟩
  · have := stop_ok h
    exact ⟨this.fade, this.rate, this.rate', this.voices⟩

/-- An event that does not set improper loop points. -/
def ProperEvent (e : SamplerEvent) : Prop := ∀ a b, e.eventType = .enableLoop a b → a < b

theorem processEvent_proper {s : Sampler S} {e : SamplerEvent} (h : Proper s.loopPoints)
    (he : ProperEvent e) (t : Int) : Proper (s.processEvent e t).loopPoints := by
  unfold processEvent
  split
  · rw [(start_same s _ _).2.2.2.2]; exact h
  · rw [(start_same s _ _).2.2.2.2]; exact h
  · exact h
  · rename_i a b hab
    intro x y hxy
    cases hxy
    exact he a b hab
  · intro x y hxy; cases hxy
  · intro x y hxy; cases hxy

/-- A sampler plays on: what is there after the end of its sample. -/
def Done (s : Sampler S) : Prop :=
  s.loopPoints = none ∧
    roundUsize (Timestamp.asSamples (s.nextLoopPosition - s.position) s.sampleRate) = 0

theorem renderFrameCount_done {s : Sampler S} (h : s.Done) (r : Nat) : s.renderFrameCount r = 0 := by
  have h1 : s.getRenderInterval r ≤ s.nextLoopPosition - s.position := by
    unfold getRenderInterval
    simp only
    split <;> omega
  have h2 := roundUsize_mono (asSamples_mono s.sampleRate h1)
  rw [h.2] at h2
  unfold renderFrameCount
  omega

theorem done_of_zero {s : Sampler S} (hs : s.Ok) (hl : s.loopPoints = none) {r : Nat} (hr : 0 < r)
    (h : s.renderFrameCount r = 0) : s.Done := by
  refine ⟨hl, ?_⟩
  rcases lt_or_ge (s.position + Timestamp.fromSamples (r : ℚ) s.sampleRate) s.nextLoopPosition with h1 | h1
  · rw [renderFrameCount_all hs r h1] at h; omega
  · rw [renderFrameCount_end r h1] at h; omega

section Render

variable [Add S] [Mul S] [One S]

omit [Add S] [Mul S] in
theorem mixVoices_after [Add S] [Mul S] (fade : Fade S) (src : Grid S) (vs : List Voice) (n : Nat)
    (c i : Nat) (o : S) :
    mixVoices fade src (vs.map (fun v => v.after fade n)) c i o = mixVoices fade src vs c (n + i) o := by
  induction vs generalizing o with
  | nil => rfl
  | cons v vs ih =>
    simp only [List.map_cons, mixVoices, List.foldl_cons, Voice.heard_after] at *
    exact ih _

/-- Without loop points: a number of frames is rendered, and if these are not all then the end of the
sample has been reached. -/
theorem processSample_plain (w : Window) (fuel : Nat) : ∀ (fp : Nat) (s : Sampler S) (out : Grid S)
    (t : Sampler S) (out' : Grid S), s.Ok → s.loopPoints = none → w.offset + w.count ≤ out.frames →
    fp ≤ w.count → processSample w fuel fp s out = .ok (t, out') →
    ∃ k, k ≤ w.count - fp ∧ t.voices = s.voices.map (fun v => v.after s.fade k) ∧
      t.activeVoice = s.activeVoice ∧
      out' = s.mixed out ⟨w.offset + fp, k⟩ ∧ SameRest s t ∧ t.completedLoops = s.completedLoops ∧
      (k = w.count - fp ∨ t.Done) := by
  induction fuel with
  | zero =>
    intro fp s out t out' hs hl hw hle h
    rw [processSample] at h
    split at h
    · cases h
    · cases h
      refine ⟨0, Nat.zero_le _, ?_, rfl, ?_, SameRest.refl _, rfl, Or.inl (by omega)⟩
      · rw [List.map_congr_left (g := id)]
        · simp
        · intro v hv; exact Voice.after_zero _ _ (hs.voices v hv)
      · refine Grid.ext' rfl rfl fun c f => ?_
        rw [mixed, Grid.changed_mk, if_neg (by omega)]
  | succ fuel ih =>
    intro fp s out t out' hs hl hw hle h
    have hzero : s.voices = s.voices.map (fun v => v.after s.fade 0) := by
      rw [List.map_congr_left (g := id)]
      · simp
      · intro v hv; exact Voice.after_zero _ _ (hs.voices v hv)
    have hmix : out = s.mixed out ⟨w.offset + fp, 0⟩ := by
      refine Grid.ext' rfl rfl fun c f => ?_
      rw [mixed, Grid.changed_mk, if_neg (by omega)]
    by_cases hfp : fp < w.count
    · by_cases hn : s.renderFrameCount (w.count - fp) = 0
      · rw [processSample_break hfp hn hl] at h
        cases h
        exact ⟨0, Nat.zero_le _, hzero, rfl, hmix, SameRest.refl _, rfl,
          Or.inr (done_of_zero hs hl (by omega) hn)⟩
      · rw [processSample_step hs hw hfp hn] at h
        obtain ⟨n, hn'⟩ : ∃ n, s.renderFrameCount (w.count - fp) = n := ⟨_, rfl⟩
        have hnle := renderFrameCount_le s (w.count - fp)
        rw [hn'] at h hn hnle
        obtain ⟨k, h1, h2, h2', h3, h4, h5, h6⟩ := ih _ _ _ _ _ (advanced_ok hs n) hl (by exact hw)
          (by omega) h
        refine ⟨n + k, by omega, ?_, h2', ?_, (advanced_same s n).trans h4, h5, ?_⟩
        · rw [h2]
          simp only [advanced, List.map_map]
          apply List.map_congr_left
          intro v hv
          exact Voice.after_after _ _ _ _
        · rw [h3]
          simp only [mixed, advanced]
          have := Voice.changed_changed out ⟨w.offset + fp, n + k⟩ n k
            (mixVoices s.fade s.buffer s.voices) rfl
          rw [← this]
          simp only [Nat.add_assoc]
          congr 1
          funext c i o
          exact mixVoices_after _ _ _ _ _ _ _
        · rcases h6 with h6 | h6
          · left; omega
          · right; exact h6
    · rw [processSample_done (by omega)] at h
      cases h
      exact ⟨0, Nat.zero_le _, hzero, rfl, hmix, SameRest.refl _, rfl, Or.inl (by omega)⟩

omit [One S] in
theorem renderPart_eq [One S] (fuel : Nat) (s : Sampler S × Grid S) (p k : Nat)
    (h : p + k ≤ s.2.frames) : renderPart fuel s p k = processSample ⟨p, k⟩ fuel 0 s.1 s.2 := by
  unfold renderPart
  rw [if_neg (by omega)]

theorem renderPart_mono : FuelMono (renderPart (S := S)) := by
  intro f s p k r h more
  unfold renderPart at h ⊢
  split
  · rename_i h1; rw [if_pos h1] at h; exact h
  · rename_i h1
    rw [if_neg h1] at h
    exact processSample_mono _ _ _ _ _ _ h more

theorem processAudio_mono {fuel : Nat} {s : Sampler S} {out : Grid S} {start : Int}
    {r : Sampler S × Grid S} (h : processAudio fuel s out start = .ok r) (more : Nat) :
    processAudio (fuel + more) s out start = .ok r := by
  unfold processAudio at h ⊢
  simp only [bind] at h ⊢
  cases hl : EventProcessor.loop (renderPart fuel) applyEvent s.sampleRate start out.frames
      s.events.receiveEvents.pending 0 start ({ s with events := s.events.receiveEvents }, out) with
  | error e => rw [hl] at h; cases h
  | ok q =>
    rw [hl] at h
    rw [loop_mono renderPart_mono applyEvent _ _ _ _ _ _ _ _ _ hl more]
    exact h

theorem run_mono {fuel : Nat} (bs : List (SamplerBlock S)) : ∀ {s : Sampler S}
    {r : Sampler S × List (Grid S)}, run fuel s bs = .ok r → ∀ more, run (fuel + more) s bs = .ok r := by
  induction bs with
  | nil => intro s r h more; exact h
  | cons b bs ih =>
    intro s r h more
    rw [run] at h ⊢
    simp only [bind] at h ⊢
    cases hp : (s.sendAll b.sent).processAudio fuel b.out b.start with
    | error e => rw [hp] at h; cases h
    | ok q =>
      rw [hp] at h
      rw [processAudio_mono hp more]
      simp only [Except.bind] at h ⊢
      cases hr : run fuel q.1 bs with
      | error e => rw [hr] at h; cases h
      | ok q2 =>
        rw [hr] at h
        rw [ih hr more]
        exact h

theorem run_cons {s t u : Sampler S} {b : SamplerBlock S} {bs : List (SamplerBlock S)} {f g : Nat}
    {o : Grid S} {outs : List (Grid S)}
    (h1 : (s.sendAll b.sent).processAudio f b.out b.start = .ok (t, o)) (h2 : run g t bs = .ok (u, outs)) :
    run (f + g) s (b :: bs) = .ok (u, o :: outs) := by
  rw [run]
  simp only [bind]
  rw [processAudio_mono h1 g]
  simp only [Except.bind]
  rw [Nat.add_comm f g, run_mono bs h2 f]

omit [Add S] [Mul S] [One S] in
theorem sendAll_eq (s : Sampler S) (es : List SamplerEvent) :
    s.sendAll es = { s with events := { s.events with channel := s.events.channel ++ es } } := by
  induction es generalizing s with
  | nil => simp [sendAll]
  | cons e es ih =>
    have : s.sendAll (e :: es) = (s.send e).sendAll es := rfl
    rw [this, ih]
    simp [send]

/-- A block: it returns and keeps an invariant when rendering and the events due do. -/
theorem processAudio_inv {s : Sampler S} {out : Grid S} {start : Int} (hsr : 0 < s.sampleRate)
    (hn : 0 < out.frames) (hlen : out.frames * s.sampleRate ≤ 2 ^ 33)
    (hs : InTimeOrder s.events.pending) (Inv : Nat → Sampler S × Grid S → Prop)
    (hr : ∀ x p k, Inv p x → p + k ≤ out.frames → p + k ≤ x.2.frames ∧
      ∃ f x', processSample ⟨p, k⟩ f 0 x.1 x.2 = .ok x' ∧ Inv (p + k) x')
    (ha : ∀ x, ∀ e ∈ s.events.receiveEvents.pending,
      e.time < Timestamp.incrementedBySamples start out.frames s.sampleRate → ∀ t,
      Inv (frameOf start e.time s.sampleRate) x →
      Inv (frameOf start e.time s.sampleRate) (x.1.processEvent e t, x.2))
    (hi : Inv 0 ({ s with events := s.events.receiveEvents }, out)) :
    ∃ f t out', processAudio f s out start = .ok ({ t with
        events := { s.events.receiveEvents with
          pending := s.events.receiveEvents.pending.filter (fun e =>
            !decide (e.time < Timestamp.incrementedBySamples start out.frames s.sampleRate)) } }, out') ∧
      Inv out.frames (t, out') := by
  obtain ⟨f, x, h1, h2⟩ := loop_inv renderPart_mono applyEvent hsr start hn hlen Inv
    (fun x p k hi hk => by
      obtain ⟨a, f, x', b, c⟩ := hr x p k hi hk
      exact ⟨f, x', (renderPart_eq f x p k a).trans b, c⟩)
    s.events.receiveEvents.pending (receive_sorted _ hs)
    (fun x e he ht t hi => ⟨_, rfl, ha x e he ht t hi⟩)
    ({ s with events := s.events.receiveEvents }, out) hi
  refine ⟨f, x.1, x.2, ?_, h2⟩
  unfold processAudio
  simp only [bind]
  rw [h1]
  rfl

end Render
end Sampler
end Rawdio
