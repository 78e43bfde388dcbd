import Verif.Lemmas.SamplerExact

/-! # A sampler that is started at a time -/

namespace Rawdio
namespace Sampler

variable {S : Type}

open TimedEvent EventProcessor

/-- The position of the sampler is at most `D / 2` units of time after frame `q`. -/
def Behind (s : Sampler S) (q D : Nat) : Prop :=
  (s.position : ℚ) ≤ q / s.sampleRate * 2 ^ 32 + (D : ℚ) / 2

theorem behind_advanced {s : Sampler S} {q D : Nat} (h : s.Behind q D) (n : Nat) :
    (s.advanced n).Behind (q + n) (D + 1) := by
  unfold Behind advanced Timestamp.incrementedBySamples at *
  simp only
  have h2 := fromSamples_near n s.sampleRate
  push_cast
  rw [abs_le] at h2
  have e : ((q : ℚ) + n) / s.sampleRate * 2 ^ 32 = q / s.sampleRate * 2 ^ 32 + n / s.sampleRate * 2 ^ 32 := by
    ring
  rw [e]
  linarith [h2.1, h2.2]

/-- A sampler that is not ahead renders up to the end of the sample at least. -/
theorem renderFrameCount_behind {s : Sampler S} (hs : s.Ok) (hl : s.loopPoints = none) {q D : Nat}
    (h : s.Behind q D) (hD : (D + 2) * s.sampleRate ≤ 2 ^ 32) (r : Nat) :
    min (s.buffer.frames - q) r ≤ s.renderFrameCount r := by
  have hsr : (0 : ℚ) < s.sampleRate := by exact_mod_cast hs.rate
  have hD' : ((D : ℚ) + 2) * s.sampleRate ≤ 2 ^ 32 := by exact_mod_cast hD
  have hN := fromSamples_near s.buffer.frames s.sampleRate
  unfold Behind at h
  rw [abs_le] at hN
  obtain ⟨U, hU⟩ : ∃ U : ℚ, U = 2 ^ 32 / s.sampleRate := ⟨_, rfl⟩
  have hUD : ((D : ℚ) + 2) ≤ U := by rw [hU, le_div_iff₀ hsr]; exact hD'
  have eU : ∀ x : ℚ, x / s.sampleRate * 2 ^ 32 = x * U := by intro x; rw [hU]; ring
  rw [eU] at h hN
  have hD0 : (0 : ℚ) ≤ D := Nat.cast_nonneg D
  rcases lt_or_ge (s.position + Timestamp.fromSamples (r : ℚ) s.sampleRate) s.nextLoopPosition with h1 | h1
  · rw [renderFrameCount_all hs r h1]
    exact Nat.min_le_right _ _
  · rw [renderFrameCount_end r h1, nextLoopPosition_none hl]
    rcases Nat.le_total s.buffer.frames q with hq | hq
    · rw [Nat.sub_eq_zero_of_le hq, Nat.zero_min]; exact Nat.zero_le _
    · refine min_le_min_right _ ?_
      have h3 : roundUsize ((s.buffer.frames - q : Nat) - 1 / 2 : ℚ) = s.buffer.frames - q := by
        unfold roundUsize
        rw [sub_add_cancel]
        simp
      calc s.buffer.frames - q = _ := h3.symm
        _ ≤ _ := roundUsize_mono ?_
      rw [asSamples_eq, Nat.cast_sub hq]
      push_cast
      have e : ∀ x : ℚ, x * s.sampleRate / 2 ^ 32 = x / U := by
        intro x; rw [hU]; field_simp
      have hU0 : 0 < U := by linarith
      rw [e, le_div_iff₀ hU0]
      have e2 : ((s.buffer.frames : ℚ) - q - 1 / 2) * U = s.buffer.frames * U - q * U - U / 2 := by ring
      rw [e2]
      linarith [h, hN.1, hN.2]

/-- A sampler whose first voice plays frame `p` of the sample next, if it has so many. -/
structure Voicing (s : Sampler S) (p D : Nat) : Prop where
  ok : s.Ok
  loop : s.loopPoints = none
  voices : ∃ v vs, s.voices = ⟨v, .playing⟩ :: vs ∧ (∀ u ∈ vs, u.phase = .stopped) ∧
    (v = p ∧ s.Behind p D ∨ s.buffer.frames ≤ v ∧ s.buffer.frames ≤ p)

/-- A part of a block with the sample added from its frame `p` on. -/
def playedPart [Add S] (sample : Grid S) (p : Nat) (w : Window) (out : Grid S) : Grid S :=
  out.changed w fun c i x => if c < sample.channels ∧ p + i < sample.frames then x + sample.val c (p + i) else x

theorem playedFrom_part [Add S] (sample : Grid S) (p : Nat) (b : SamplerBlock S) (bs : List (SamplerBlock S)) :
    playedFrom sample p (b :: bs) =
      playedPart sample p ⟨0, b.out.frames⟩ b.out :: playedFrom sample (p + b.out.frames) bs := by
  rw [playedFrom]
  congr 1
  refine Grid.ext' rfl rfl fun c f => ?_
  rw [playedPart, Grid.changed_mk]
  simp only [Nat.sub_zero, Nat.zero_add, Nat.zero_le, true_and]
  split_ifs <;> first | rfl | (exfalso; tauto)

section Render

variable [Add S] [Mul S] [One S]

theorem late_part {s : Sampler S} {p D : Nat} (h : s.Voicing p D) (hD : (D + 2) * s.sampleRate ≤ 2 ^ 32)
    (w : Window) (out : Grid S) (hw : w.offset + w.count ≤ out.frames) :
    ∃ f t, processSample w f 0 s out = .ok (t, playedPart s.buffer p w out) ∧ t.Voicing (p + w.count) (D + 1) ∧
      SameRest s t := by
  obtain ⟨fuel, t, out', e1, e2, e3, e4, e5⟩ := processSample_returns w w.count _ 0 s out h.ok
    (by rw [h.loop]; intro a b hab; cases hab) hw (by omega) (le_refl _)
  obtain ⟨k, h1, h2, h2', h3, _, _, h6⟩ := processSample_plain w fuel 0 s out t out' h.ok h.loop hw
    (Nat.zero_le _) e1
  obtain ⟨v, vs, hv, hst, hcase⟩ := h.voices
  -- enough is rendered
  have hk : v = p ∧ s.Behind p D → (k < w.count → s.buffer.frames ≤ p + k) ∧
      (p + w.count < s.buffer.frames → t = s.advanced w.count) := by
    rintro ⟨rfl, hb⟩
    by_cases hc : 0 < w.count
    · have hr := renderFrameCount_behind h.ok h.loop hb hD w.count
      have hle := renderFrameCount_le s w.count
      by_cases hz : s.renderFrameCount w.count = 0
      · refine ⟨fun _ => by omega, fun hf => by omega⟩
      · have hstep := fun f => processSample_step (fuel := f) (fp := 0) h.ok hw hc (by rw [Nat.sub_zero]; exact hz)
        simp only [Nat.sub_zero, Nat.zero_add] at hstep
        by_cases hall : s.renderFrameCount w.count = w.count
        · have h7 := hstep 0
          rw [hall, processSample_done (le_refl _)] at h7
          have h8 := processSample_mono _ _ _ _ _ _ h7 fuel
          have h9 := processSample_mono _ _ _ _ _ _ e1 (0 + 1)
          rw [Nat.add_comm fuel, h8] at h9
          injection h9 with h9
          injection h9 with h9 h10
          refine ⟨fun hkc => ?_, fun _ => h9.symm⟩
          exfalso
          obtain ⟨j, j1, j2⟩ : ∃ j, k = j ∧ j < w.count := ⟨k, rfl, hkc⟩
          -- the first voice has moved on by all the frames
          have h11 := congrArg (fun x : Sampler S => x.voices.head?.map Voice.position) h9
          simp only [advanced, h2, hv, List.map_cons, List.head?_cons, Option.map_some, Voice.after,
            Option.some.injEq] at h11
          omega
        · have hf : s.buffer.frames - v ≤ s.renderFrameCount w.count := by omega
          refine ⟨fun _ => ?_, fun hlt => by omega⟩
          -- at least one turn has been made
          have h9 := processSample_mono _ _ _ _ _ _ e1 1
          rw [hstep fuel] at h9
          obtain ⟨k', g1, g2, _⟩ := processSample_plain w fuel _ _ _ t out' (advanced_ok h.ok _)
            ((advanced_same s _).loopPoints.trans h.loop) (by exact hw) hle h9
          have h11 : (t.voices.head?.map Voice.position) = (t.voices.head?.map Voice.position) := rfl
          conv at h11 => lhs; rw [g2]
          conv at h11 => rhs; rw [h2]
          simp only [advanced, hv, List.map_cons, List.head?_cons, Option.map_some, Voice.after,
            Option.some.injEq] at h11
          omega
    · have hc0 : w.count = 0 := by omega
      refine ⟨fun hkc => by omega, fun _ => ?_⟩
      rw [processSample_done (by omega)] at e1
      injection e1 with e1
      injection e1 with e1 _
      subst e1
      have hid : s.voices.map (fun v => v.after s.fade 0) = s.voices := by
        rw [List.map_congr_left (g := id)]
        · simp
        · intro v hv; exact Voice.after_zero _ _ (h.ok.voices v hv)
      have hpz : Timestamp.incrementedBySamples s.position 0 s.sampleRate = s.position := by
        simp [Timestamp.incrementedBySamples, Timestamp.fromSamples_zero]
      rw [hc0, advanced, hid, hpz]
  have hout : out' = playedPart s.buffer p w out := by
    rw [h3, Nat.add_zero]
    refine Grid.ext' rfl rfl fun c f => ?_
    rw [mixed, playedPart, Grid.changed_mk, Grid.changed_mk, hv]
    have e : ∀ i o, mixVoices s.fade s.buffer (⟨v, .playing⟩ :: vs) c i o =
        mixVoices s.fade s.buffer vs c i ((Heard.plain (v + i)).mix s.buffer c o) := fun _ _ => rfl
    rw [e, mixVoices_stopped _ _ hst]
    simp only [Heard.mix]
    rcases hcase with hb | ⟨hb1, hb2⟩
    · have hkb := (hk hb).1
      obtain ⟨rfl, _⟩ := hb
      split_ifs <;> first | rfl | (exfalso; omega)
    · split_ifs <;> first | rfl | (exfalso; omega)
  refine ⟨fuel, t, by rw [e1, hout], ⟨e2, e3.loopPoints.trans h.loop, v + k, vs.map (fun v => v.after s.fade k),
    by rw [h2, hv, List.map_cons]; rfl, stopped_after s.fade hst k, ?_⟩, e3⟩
  rw [e3.buffer]
  rcases hcase with hb | ⟨hb1, hb2⟩
  · obtain ⟨k1, k2⟩ := hk hb
    obtain ⟨rfl, hb⟩ := hb
    by_cases hlt : v + w.count < s.buffer.frames
    · left
      have ht := k2 hlt
      refine ⟨?_, by rw [ht]; exact behind_advanced hb _⟩
      by_contra hne
      have : k < w.count := by omega
      have := k1 this
      omega
    · right
      refine ⟨?_, by omega⟩
      by_cases hkc : k < w.count
      · exact k1 hkc
      · omega
  · exact Or.inr ⟨by omega, by omega⟩

/-- A sampler that plays nothing. -/
structure Idle (s : Sampler S) : Prop where
  ok : s.Ok
  loop : s.loopPoints = none
  some : s.voices ≠ []
  stopped : ∀ v ∈ s.voices, v.phase = .stopped
  active : s.activeVoice = none
  channel : s.events.channel = []

omit [Add S] [Mul S] [One S] in
theorem new_idle (sr : Nat) (h0 : 0 < sr) (h1 : sr < 2 ^ 32) (buffer : Grid S) (fade : Fade S)
    (hL : 0 < fade.values.length) : (new sr buffer fade).Idle :=
  ⟨(new_good sr h0 h1 buffer fade hL).ok, rfl, by simp [new], by simp [new, Voice.default], rfl, rfl⟩

theorem idle_part {s : Sampler S} (h : s.Idle) (w : Window) (out : Grid S) (hw : w.offset + w.count ≤ out.frames) :
    ∃ f t, processSample w f 0 s out = .ok (t, out) ∧ t.Idle ∧ SameRest s t := by
  obtain ⟨fuel, t, out', e1, e2, e3, e4, e5⟩ := processSample_returns w w.count _ 0 s out h.ok
    (by rw [h.loop]; intro a b hab; cases hab) hw (by omega) (le_refl _)
  obtain ⟨k, h1, h2, h2', h3, _, _, h6⟩ := processSample_plain w fuel 0 s out t out' h.ok h.loop hw
    (Nat.zero_le _) e1
  refine ⟨fuel, t, ?_, ⟨e2, e3.loopPoints.trans h.loop, ?_, ?_, h2'.trans h.active, ?_⟩, e3⟩
  · rw [e1, h3]
    congr 2
    refine Grid.ext' rfl rfl fun c f => ?_
    rw [mixed, Grid.changed_mk, mixVoices_stopped _ _ h.stopped]
    simp
  · rw [h2]; simpa using h.some
  · rw [h2]; exact stopped_after s.fade h.stopped k
  · rw [e3.events]; exact h.channel

omit [Add S] [Mul S] [One S] in
theorem receive_small {s : Sampler S} (hch : s.events.channel = []) (es : List SamplerEvent)
    (hl : (s.events.pending ++ es).length ≤ 1) : (s.sendAll es).events.receiveEvents =
      { s.events with pending := s.events.pending ++ es, channel := [] } := by
  rw [sendAll_eq]
  match es, hl with
  | [], _ =>
    simp only [hch, List.append_nil, receiveEvents]
  | e :: es, hl =>
    simp only [List.length_append, List.length_cons] at hl
    have h1 : es = [] := List.length_eq_zero_iff.mp (by omega)
    have h2 : s.events.pending = [] := List.length_eq_zero_iff.mp (by omega)
    subst h1
    have h3 : ([e]).foldl push [] = [e] := by
      simp only [List.foldl_cons, List.foldl_nil, push, List.nil_append, ite_self]
    simp only [hch, List.nil_append, receiveEvents, h2, h3, List.mergeSort_singleton]

omit [Add S] [Mul S] [One S] in
theorem sendAll_with (s : Sampler S) (es : List SamplerEvent) (ev : EventProcessor SamplerEvent) :
    ({ s.sendAll es with events := ev } : Sampler S) = { s with events := ev } := by rw [sendAll_eq]

omit [Add S] [Mul S] [One S] in
theorem idle_events {s : Sampler S} (h : s.Idle) {ev : EventProcessor SamplerEvent} (he : ev.channel = []) :
    ({ s with events := ev } : Sampler S).Idle :=
  ⟨⟨h.ok.fade, h.ok.rate, h.ok.rate', h.ok.voices⟩, h.loop, h.some, h.stopped, h.active, he⟩

/-- A block in which nothing is due. -/
theorem wait_block {s : Sampler S} (h : s.Idle) (es : List SamplerEvent)
    (hl : (s.events.pending ++ es).length ≤ 1) (out : Grid S) (start : Int) (hn : 0 < out.frames)
    (hd : ∀ e ∈ s.events.pending ++ es, Timestamp.incrementedBySamples start out.frames s.sampleRate ≤ e.time) :
    ∃ f t, processAudio f (s.sendAll es) out start = .ok (t, out) ∧ t.Idle ∧ SameFixed s t ∧
      t.events.pending = s.events.pending ++ es := by
  obtain ⟨f, t, h1, h2, h3⟩ := idle_part (idle_events h (ev := { s.events with
    pending := s.events.pending ++ es, channel := [] }) rfl) ⟨0, out.frames⟩ out (by simp)
  refine ⟨f, _, ?_, idle_events h2 (ev := { s.events with
    pending := s.events.pending ++ es, channel := [] }) rfl, ⟨h3.fade, h3.buffer, h3.sampleRate⟩, rfl⟩
  rw [processAudio_eq, receive_small h.channel es hl, sendAll_with]
  simp only
  have hne : nextEvent s.sampleRate (s.events.pending ++ es) start start out.frames =
      (out.frames, none, s.events.pending ++ es) := by
    unfold nextEvent nextEventBefore
    cases hq : s.events.pending ++ es with
    | nil => rfl
    | cons e q =>
      simp only
      have := hd e (by rw [hq]; simp)
      have h4 : ¬ TimedEvent.time e < Timestamp.incrementedBySamples start out.frames s.sampleRate := by
        change ¬ e.time < _
        omega
      rw [if_neg h4]
  unfold blockLoop
  rw [EventProcessor.loop, if_pos hn]
  simp only
  split
  · rename_i h'
    rw [hne] at h'
    cases h'
  · rename_i h'
    rw [hne] at h'
    cases h'
    simp only [Nat.sub_zero, bind]
    rw [renderPart_eq _ _ _ _ (by simp)]
    simp only
    rw [h1]
    rfl

omit [Add S] [Mul S] [One S] in
theorem start_idle {s : Sampler S} (h : s.Idle) {d : Int} (hd : (d : ℚ) ≤ 3 / 2) (hsr : 4 * s.sampleRate ≤ 2 ^ 32) :
    (s.start 0 d).Voicing 0 3 := by
  have hr : (0 : ℚ) < s.sampleRate := by exact_mod_cast h.ok.rate
  have h0 : roundUsize (Timestamp.asSamples (0 + d) s.sampleRate) = 0 := by
    apply roundUsize_eq_zero
    rw [zero_add, asSamples_eq]
    have : (4 : ℚ) * s.sampleRate ≤ 2 ^ 32 := by exact_mod_cast hsr
    rw [div_lt_iff₀ (by norm_num)]
    nlinarith
  obtain ⟨v, vs, hv⟩ := List.exists_cons_of_ne_nil h.some
  have hmap : s.voices.map Voice.stop = s.voices := by
    rw [List.map_congr_left (g := id)]
    · simp
    · intro v hv
      have := h.stopped v hv
      obtain ⟨q, ph⟩ := v
      simp only at this
      subst this
      rfl
  have hvs : (s.start 0 d).voices = ⟨0, .playing⟩ :: vs := by
    unfold Sampler.start assignVoice
    simp only [h0]
    rw [if_neg (by simp [activePosition, h.active])]
    unfold takeVoice stop
    simp only [hmap]
    have : s.voices.findIdx? Voice.isStopped = some 0 := by
      have h1 := h.stopped v (by rw [hv]; exact List.mem_cons_self)
      rw [hv, List.findIdx?_cons, Voice.isStopped, h1]
      rfl
    rw [this, hv]
    rfl
  have hsame := start_same s 0 d
  refine ⟨start_ok h.ok 0 d, hsame.2.2.2.2.trans h.loop, 0, vs, hvs, ?_, Or.inl ⟨rfl, ?_⟩⟩
  · intro u hu; exact h.stopped u (by rw [hv]; exact List.mem_cons_of_mem _ hu)
  · unfold Behind
    have : (s.start 0 d).position = d := rfl
    rw [this]
    push_cast
    rw [zero_div, zero_mul, zero_add]
    exact hd

/-- The block in which the sampler starts. -/
theorem fire_block {s : Sampler S} (h : s.Idle) (es : List SamplerEvent) (n : Nat) (T : Int)
    (hq : s.events.pending ++ es = [.start n T 0]) (out : Grid S) (start : Int) (k : Nat)
    (hk : framePosition start start T s.sampleRate = k) (hkn : k < out.frames)
    (hT : T < Timestamp.incrementedBySamples start out.frames s.sampleRate)
    (hd : ((Timestamp.incrementedBySamples start k s.sampleRate - T : Int) : ℚ) ≤ 3 / 2)
    (hsr : 5 * s.sampleRate ≤ 2 ^ 32) :
    ∃ f t, processAudio f (s.sendAll es) out start =
        .ok (t, playedPart s.buffer 0 ⟨k, out.frames - k⟩ out) ∧ t.Voicing (out.frames - k) 4 ∧ SameFixed s t ∧
      t.events.pending = [] ∧ t.events.channel = [] := by
  obtain ⟨ev, hev⟩ : ∃ ev : EventProcessor SamplerEvent,
    ev = { s.events with pending := [.start n T 0], channel := [] } := ⟨_, rfl⟩
  obtain ⟨f, t, h1, h2, h3⟩ := idle_part (idle_events h (ev := ev) (by rw [hev])) ⟨0, k⟩ out (by simp only; omega)
  have hr : t.sampleRate = s.sampleRate := h3.sampleRate
  have hst := start_idle h2 hd (by rw [hr]; omega)
  have hss := start_same t 0 (Timestamp.incrementedBySamples start k s.sampleRate - T)
  obtain ⟨g, u, g1, g2, g3⟩ := late_part hst (by rw [hss.2.2.2.1, hr]; omega) ⟨k, out.frames - k⟩ out
    (by simp only; omega)
  have hbuf : (t.start 0 (Timestamp.incrementedBySamples start k s.sampleRate - T)).buffer = s.buffer :=
    hss.2.1.trans h3.buffer
  simp only [Nat.zero_add] at g2
  rw [hbuf] at g1
  obtain ⟨v, vs, v1, v2, v3⟩ := g2.voices
  refine ⟨f + g, { u with events := { ev with pending := [] } }, ?_,
    ⟨⟨g2.ok.fade, g2.ok.rate, g2.ok.rate', g2.ok.voices⟩, g2.loop, v, vs, v1, v2, v3⟩,
    ⟨g3.fade.trans (hss.1.trans h3.fade), g3.buffer.trans hbuf,
      g3.sampleRate.trans (hss.2.2.2.1.trans hr)⟩, rfl, by rw [hev]⟩
  rw [processAudio_eq, receive_small h.channel es (by rw [hq]; simp), sendAll_with, hq, ← hev]
  have hp : ev.pending = [.start n T 0] := by rw [hev]
  rw [hp]
  have hne : nextEvent s.sampleRate [SamplerEvent.start n T 0] start start out.frames =
      (k, some (SamplerEvent.start n T 0), []) := by
    unfold nextEvent nextEventBefore
    have h4 : TimedEvent.time (SamplerEvent.start n T 0) <
        Timestamp.incrementedBySamples start out.frames s.sampleRate := hT
    simp only [if_pos h4]
    rw [← hk]
    rfl
  unfold blockLoop
  rw [EventProcessor.loop, if_pos (by omega)]
  simp only
  split
  · rename_i h'
    rw [hne] at h'
    cases h'
    rw [if_neg (by omega)]
    simp only [Nat.sub_zero, bind]
    rw [renderPart_eq _ _ _ _ (by simp only; omega)]
    simp only
    rw [processSample_mono _ _ _ _ _ _ h1 g]
    simp only [Except.bind, applyEvent, processEvent, SamplerEvent.start]
    rw [EventProcessor.loop, if_pos (by omega)]
    simp only [nextEvent, nextEventBefore, bind]
    rw [renderPart_eq _ _ _ _ (by simp only; omega)]
    simp only
    rw [Nat.add_comm f g, processSample_mono _ _ _ _ _ _ g1 f]
    rfl
  · rename_i h'
    rw [hne] at h'
    cases h'

/-- Blocks after the start. -/
theorem late_run (bs : List (SamplerBlock S)) : ∀ {s : Sampler S} {p D : Nat}, s.Voicing p D →
    s.events.pending = [] → s.events.channel = [] → (∀ b ∈ bs, b.sent = [] ∧ 0 < b.out.frames) →
    (D + bs.length + 2) * s.sampleRate ≤ 2 ^ 32 → ∃ f t, run f s bs = .ok (t, playedFrom s.buffer p bs) := by
  induction bs with
  | nil => intro s p D _ _ _ _ _; exact ⟨0, s, rfl⟩
  | cons b bs ih =>
    intro s p D h hp hch hb hD
    obtain ⟨f, t, h1, h2, h3⟩ := late_part h
      (le_trans (Nat.mul_le_mul_right _ (by simp only [List.length_cons]; omega)) hD) ⟨0, b.out.frames⟩ b.out (by simp)
    have hr : s.events.receiveEvents = s.events := by
      unfold receiveEvents
      rw [hch]
    have h4 : processAudio f s b.out b.start = .ok ({ t with events := { s.events with pending := [] } },
        playedPart s.buffer p ⟨0, b.out.frames⟩ b.out) := by
      have hsv : ({ s with events := s.events } : Sampler S) = s := rfl
      rw [processAudio_eq, hr, hp, hsv, blockLoop_nil _ _ _ _ (hb b List.mem_cons_self).2, h1]
      rfl
    obtain ⟨v, vs, v1, v2, v3⟩ := h2.voices
    obtain ⟨g, u, hu⟩ := ih (s := { t with events := { s.events with pending := [] } })
      ⟨⟨h2.ok.fade, h2.ok.rate, h2.ok.rate', h2.ok.voices⟩, h2.loop, v, vs, v1, v2, v3⟩ rfl hch
      (fun c hc => hb c (List.mem_cons_of_mem _ hc)) (by
        simp only [h3.sampleRate]
        refine le_trans (Nat.mul_le_mul_right _ ?_) hD
        simp only [List.length_cons]; omega)
    refine ⟨f + g, u, ?_⟩
    rw [run, (hb b List.mem_cons_self).1, playedFrom_part]
    simp only [bind]
    have hs0 : s.sendAll [] = s := rfl
    rw [hs0, processAudio_mono h4 g]
    simp only [Except.bind]
    rw [Nat.add_comm f g, run_mono bs hu f]
    change Except.ok (u, _ :: playedFrom t.buffer _ bs) = _
    rw [h3.buffer]

/-- The first frames of the blocks and their times agree. -/
def OnTime (sr : Nat) : Nat → List (SamplerBlock S) → Prop
  | _, [] => True
  | F, b :: bs => |(b.start : ℚ) - F / sr * 2 ^ 32| ≤ 1 ∧ OnTime sr (F + b.out.frames) bs

omit [Mul S] [One S] in
theorem startedAt_played (sample : Grid S) (M : Nat) (bs : List (SamplerBlock S)) : ∀ F p, F = M + p →
    startedAt sample M F bs = playedFrom sample p bs := by
  induction bs with
  | nil => intro F p _; rfl
  | cons b bs ih =>
    intro F p h
    rw [startedAt, playedFrom, ih (F + b.out.frames) (p + b.out.frames) (by omega)]
    congr 1
    refine Grid.ext' rfl rfl fun c f => ?_
    simp only
    have e : F + f - M = p + f := by omega
    rw [e]
    split_ifs <;> first | rfl | (exfalso; omega)

omit [Mul S] [One S] in
theorem startedAt_silent (sample : Grid S) (M : Nat) (bs : List (SamplerBlock S)) : ∀ F,
    F + (bs.map fun b => b.out.frames).sum ≤ M → startedAt sample M F bs = bs.map SamplerBlock.out := by
  induction bs with
  | nil => intro F _; rfl
  | cons b bs ih =>
    intro F h
    simp only [List.map_cons, List.sum_cons] at h
    rw [startedAt, ih (F + b.out.frames) (by omega), List.map_cons]
    congr 1
    refine Grid.ext' rfl rfl fun c f => ?_
    simp only
    rw [if_neg (by omega)]

/-- The frame of an event at the time of frame `N`, in a block whose first frame is `F`. -/
theorem frame_near {sr : Nat} (hsr : 0 < sr) (hU : 4 * sr ≤ 2 ^ 32) {F N n : Nat} {start : Int}
    (hs : |(start : ℚ) - F / sr * 2 ^ 32| ≤ 1) (hF : F ≤ N) (hn0 : 0 < n) :
    (Timestamp.incrementedBySamples start n sr ≤ Timestamp.fromSamples (N : ℚ) sr → F + n ≤ N) ∧
    (Timestamp.fromSamples (N : ℚ) sr < Timestamp.incrementedBySamples start n sr →
      ∃ k, framePosition start start (Timestamp.fromSamples (N : ℚ) sr) sr = k ∧ k < n ∧
        (F + k = N ∨ F + k + 1 = N) ∧
        ((Timestamp.incrementedBySamples start k sr - Timestamp.fromSamples (N : ℚ) sr : Int) : ℚ) ≤ 3 / 2) := by
  have hp : (0 : ℚ) < sr := by exact_mod_cast hsr
  obtain ⟨U, hUe⟩ : ∃ U : ℚ, U = 2 ^ 32 / sr := ⟨_, rfl⟩
  have hU4 : 4 ≤ U := by rw [hUe, le_div_iff₀ hp]; exact_mod_cast hU
  have eU : ∀ x : ℚ, x / sr * 2 ^ 32 = x * U := by intro x; rw [hUe]; ring
  have hN := fromSamples_near N sr
  have hn := fromSamples_near n sr
  rw [eU] at hs hN hn
  rw [abs_le] at hs hN hn
  obtain ⟨T, hT⟩ : ∃ T, T = Timestamp.fromSamples (N : ℚ) sr := ⟨_, rfl⟩
  obtain ⟨L, hL⟩ : ∃ L, L = Timestamp.fromSamples (n : ℚ) sr := ⟨_, rfl⟩
  rw [← hT] at hN ⊢
  rw [← hL] at hn
  have hinc : Timestamp.incrementedBySamples start n sr = start + L := by rw [hL]; rfl
  rw [hinc]
  constructor
  · intro h
    have h' : (start : ℚ) + L ≤ T := by exact_mod_cast h
    have h1 : ((F : ℚ) + n) * U < (N + 1) * U := by
      have : ((F : ℚ) + n) * U = F * U + n * U := by ring
      have : ((N : ℚ) + 1) * U = N * U + U := by ring
      linarith [hs.1, hN.2, hn.1]
    have h2 : (F : ℚ) + n < N + 1 := lt_of_mul_lt_mul_right h1 (by linarith)
    have h3 : F + n < N + 1 := by exact_mod_cast h2
    omega
  · intro h
    have h' : (T : ℚ) + 1 ≤ start + L := by exact_mod_cast h
    have hU0 : 0 < U := by linarith
    obtain ⟨X, hX⟩ : ∃ X : ℚ, X = ((max T start - start : Int) : ℚ) / U := ⟨_, rfl⟩
    have hfp : framePosition start start T sr = ⌊X⌋.toNat := by
      unfold framePosition
      rw [asSamples_eq, hX, hUe]
      congr 2
      field_simp
    have hX0 : 0 ≤ X := by
      rw [hX]
      apply div_nonneg _ hU0.le
      have : (0 : Int) ≤ max T start - start := by have := le_max_right T start; omega
      exact_mod_cast this
    have hk0 : (0 : Int) ≤ ⌊X⌋ := Int.floor_nonneg.mpr hX0
    obtain ⟨k, hk⟩ : ∃ k : Nat, (k : Int) = ⌊X⌋ := ⟨⌊X⌋.toNat, Int.toNat_of_nonneg hk0⟩
    have hkX : (k : ℚ) ≤ X := by
      have := Int.floor_le X
      rw [← hk] at this
      exact_mod_cast this
    have hXk : X < k + 1 := by
      have := Int.lt_floor_add_one X
      rw [← hk] at this
      exact_mod_cast this
    have hXU : X * U = ((max T start - start : Int) : ℚ) := by rw [hX]; field_simp
    have hkU : (k : ℚ) * U ≤ ((max T start - start : Int) : ℚ) := by
      rw [← hXU]; exact mul_le_mul_of_nonneg_right hkX hU0.le
    have hUk : ((max T start - start : Int) : ℚ) < ((k : ℚ) + 1) * U := by
      rw [← hXU]; exact mul_lt_mul_of_pos_right hXk hU0
    have hcancel : ∀ a b : ℚ, a * U < b * U → a < b := fun a b h => lt_of_mul_lt_mul_right h hU0.le
    have hfk := fromSamples_near k sr
    rw [eU, abs_le] at hfk
    have hFN : (F : ℚ) * U ≤ N * U := mul_le_mul_of_nonneg_right (by exact_mod_cast hF) hU0.le
    have e1 : ((F : ℚ) + k) * U = F * U + k * U := by ring
    have e2 : ((F : ℚ) + k + 2) * U = F * U + k * U + 2 * U := by ring
    have e3 : ((N : ℚ) + 1) * U = N * U + U := by ring
    have e4 : ((k : ℚ) + 1) * U = k * U + U := by ring
    refine ⟨k, by rw [hfp, ← hk]; rfl, ?_, ?_, ?_⟩
    · have : (k : ℚ) < n := by
        apply hcancel
        rcases le_total T start with hle | hle
        · rw [max_eq_right hle, sub_self, Int.cast_zero] at hkU
          have hL1 : (0 : ℚ) < n * U := mul_pos (by exact_mod_cast hn0) hU0
          linarith
        · rw [max_eq_left hle] at hkU
          push_cast at hkU
          linarith [hn.2]
      exact_mod_cast this
    · have h1 : F + k < N + 1 := by
        have : (F : ℚ) + k < N + 1 := by
          apply hcancel
          rw [e1, e3]
          rcases le_total T start with hle | hle
          · rw [max_eq_right hle, sub_self, Int.cast_zero] at hkU
            linarith
          · rw [max_eq_left hle] at hkU
            push_cast at hkU
            linarith [hN.2, hs.1]
        exact_mod_cast this
      have h2 : N < F + k + 2 := by
        have : (N : ℚ) < F + k + 2 := by
          apply hcancel
          rw [e2]
          have h3 : (T : ℚ) - start ≤ ((max T start - start : Int) : ℚ) := by
            have := le_max_left T start
            have h4 : T - start ≤ max T start - start := by omega
            exact_mod_cast h4
          rw [e4] at hUk
          linarith [hN.1, hs.2]
        exact_mod_cast this
      omega
    · have : Timestamp.incrementedBySamples start k sr = start + Timestamp.fromSamples (k : ℚ) sr := rfl
      rw [this]
      push_cast
      rcases le_total T start with hle | hle
      · rw [max_eq_right hle, sub_self, Int.cast_zero] at hkU
        have hk' : k = 0 := by
          by_contra hc
          have : (0 : ℚ) < k * U := mul_pos (by exact_mod_cast Nat.pos_of_ne_zero hc) hU0
          linarith
        rw [hk', Nat.cast_zero, Timestamp.fromSamples_zero]
        push_cast
        linarith [hN.1, hs.2]
      · rw [max_eq_left hle] at hkU
        push_cast at hkU
        linarith [hfk.2]

/-- A sampler with one start waiting, or sent with the first block. -/
theorem timed_run (n N : Nat) (bs : List (SamplerBlock S)) : ∀ (b : SamplerBlock S) (s : Sampler S) (F : Nat), s.Idle →
    s.events.pending ++ b.sent = [.start n (Timestamp.fromSamples (N : ℚ) s.sampleRate) 0] →
    (∀ c ∈ bs, c.sent = []) → (∀ c ∈ b :: bs, 0 < c.out.frames) → OnTime s.sampleRate F (b :: bs) → F ≤ N →
    (bs.length + 6) * s.sampleRate ≤ 2 ^ 32 →
    ∃ M f t, F ≤ M ∧ (M = N ∨ M + 1 = N) ∧ run f s (b :: bs) = .ok (t, startedAt s.buffer M F (b :: bs)) := by
  induction bs with
  | nil =>
    intro b s F h hq hbs hn ht hF hlen
    obtain ⟨t1, _⟩ := ht
    simp only [List.length_nil] at hlen
    obtain ⟨n1, n2⟩ := frame_near (n := b.out.frames) h.ok.rate (by omega) t1 hF (hn b (by simp))
    by_cases hd : Timestamp.fromSamples (N : ℚ) s.sampleRate <
        Timestamp.incrementedBySamples b.start b.out.frames s.sampleRate
    · obtain ⟨k, k1, k2, k3, k4⟩ := n2 hd
      obtain ⟨f, t, f1, _⟩ := fire_block h b.sent n _ hq b.out b.start k k1 k2 hd k4 (by omega)
      refine ⟨F + k, f, t, by omega, k3, ?_⟩
      rw [run]
      simp only [bind]
      rw [f1]
      simp only [Except.bind, run, startedAt]
      congr 3
      refine Grid.ext' rfl rfl fun c i => ?_
      rw [playedPart, Grid.changed_mk]
      simp only [Nat.zero_add]
      have e : F + i - (F + k) = i - k := by omega
      rw [e]
      split_ifs <;> first | rfl | (exfalso; omega)
    · push Not at hd
      have h1 := n1 hd
      obtain ⟨f, t, f1, _⟩ := wait_block h b.sent (by rw [hq]; simp) b.out b.start (hn b (by simp)) (by
        intro e he
        rw [hq, List.mem_singleton] at he
        subst he
        exact hd)
      refine ⟨N, f, t, hF, Or.inl rfl, ?_⟩
      rw [run]
      simp only [bind]
      rw [f1, startedAt_silent _ _ _ _ (by simpa using h1)]
      rfl
  | cons b' bs ih =>
    intro b s F h hq hbs hn ht hF hlen
    obtain ⟨t1, t2⟩ := ht
    have h5 : 5 * s.sampleRate ≤ 2 ^ 32 := le_trans (Nat.mul_le_mul_right _ (by omega)) hlen
    obtain ⟨n1, n2⟩ := frame_near (n := b.out.frames) h.ok.rate (by omega) t1 hF (hn b (by simp))
    by_cases hd : Timestamp.fromSamples (N : ℚ) s.sampleRate <
        Timestamp.incrementedBySamples b.start b.out.frames s.sampleRate
    · obtain ⟨k, k1, k2, k3, k4⟩ := n2 hd
      obtain ⟨f, t, f1, f2, f3, f4, f5⟩ := fire_block h b.sent n _ hq b.out b.start k k1 k2 hd k4 h5
      obtain ⟨g, u, hu⟩ := late_run (b' :: bs) f2 f4 f5 (fun c hc => ⟨hbs c hc, hn c (by simp [List.mem_cons.mp hc])⟩)
        (by
          rw [f3.sampleRate]
          refine le_trans (Nat.mul_le_mul_right _ ?_) hlen
          simp only [List.length_cons]; omega)
      refine ⟨F + k, f + g, u, by omega, k3, ?_⟩
      rw [run]
      simp only [bind]
      rw [processAudio_mono f1 g]
      simp only [Except.bind]
      rw [Nat.add_comm f g, run_mono _ hu f]
      simp only
      rw [startedAt, startedAt_played _ _ _ _ (b.out.frames - k) (by omega), f3.buffer]
      congr 3
      refine Grid.ext' rfl rfl fun c i => ?_
      rw [playedPart, Grid.changed_mk]
      simp only [Nat.zero_add]
      have e : F + i - (F + k) = i - k := by omega
      rw [e]
      split_ifs <;> first | rfl | (exfalso; omega)
    · push Not at hd
      have h1 := n1 hd
      obtain ⟨f, t, f1, f2, f3, f4⟩ := wait_block h b.sent (by rw [hq]; simp) b.out b.start (hn b (by simp)) (by
        intro e he
        rw [hq, List.mem_singleton] at he
        subst he
        exact hd)
      obtain ⟨M, g, u, m1, m2, m3⟩ := ih b' t (F + b.out.frames) f2 (by
          rw [f4, hbs b' (by simp), List.append_nil, hq, f3.sampleRate])
        (fun c hc => hbs c (by simp [hc])) (fun c hc => hn c (by simp [List.mem_cons.mp hc]))
        (by rw [f3.sampleRate]; exact t2) h1 (by
          rw [f3.sampleRate]
          refine le_trans (Nat.mul_le_mul_right _ ?_) hlen
          simp only [List.length_cons]; omega)
      refine ⟨M, f + g, u, by omega, m2, ?_⟩
      rw [run]
      simp only [bind]
      rw [processAudio_mono f1 g]
      simp only [Except.bind]
      rw [Nat.add_comm f g, run_mono _ m3 f]
      simp only
      rw [startedAt, f3.buffer]
      congr 3
      refine Grid.ext' rfl rfl fun c i => ?_
      simp only
      rw [if_neg (by omega)]

/-- Blocks before anything is sent. -/
theorem idle_run (bs : List (SamplerBlock S)) : ∀ {s : Sampler S}, s.Idle → s.events.pending = [] →
    (∀ c ∈ bs, c.sent = [] ∧ 0 < c.out.frames) →
    ∃ f t, run f s bs = .ok (t, bs.map SamplerBlock.out) ∧ t.Idle ∧ t.events.pending = [] ∧ SameFixed s t := by
  induction bs with
  | nil => intro s h hp _; exact ⟨0, s, rfl, h, hp, SameFixed.refl s⟩
  | cons b bs ih =>
    intro s h hp hb
    obtain ⟨b1, b2⟩ := hb b (by simp)
    obtain ⟨f, t, f1, f2, f3, f4⟩ := wait_block h b.sent (by rw [hp, b1]; simp) b.out b.start b2 (by
      rw [hp, b1]; simp)
    obtain ⟨g, u, g1, g2, g3, g4⟩ := ih f2 (by rw [f4, hp, b1]; rfl) (fun c hc => hb c (by simp [hc]))
    refine ⟨f + g, u, ?_, g2, g3, f3.trans g4⟩
    rw [run]
    simp only [bind]
    rw [processAudio_mono f1 g]
    simp only [Except.bind]
    rw [Nat.add_comm f g, run_mono _ g1 f]
    rfl

theorem run_append (bs cs : List (SamplerBlock S)) : ∀ {s t u : Sampler S} {f g : Nat} {os ps : List (Grid S)},
    run f s bs = .ok (t, os) → run g t cs = .ok (u, ps) → ∃ h, run h s (bs ++ cs) = .ok (u, os ++ ps) := by
  induction bs with
  | nil =>
    intro s t u f g os ps h1 h2
    cases h1
    exact ⟨g, h2⟩
  | cons b bs ih =>
    intro s t u f g os ps h1 h2
    rw [run] at h1
    simp only [bind] at h1
    cases hp : (s.sendAll b.sent).processAudio f b.out b.start with
    | error e => rw [hp] at h1; cases h1
    | ok r =>
      rw [hp] at h1
      simp only [Except.bind] at h1
      cases hr : run f r.1 bs with
      | error e => rw [hr] at h1; cases h1
      | ok q =>
        rw [hr] at h1
        cases h1
        obtain ⟨h, hh⟩ := ih hr h2
        refine ⟨f + h, ?_⟩
        rw [List.cons_append, run]
        simp only [bind]
        rw [processAudio_mono hp h]
        simp only [Except.bind]
        rw [Nat.add_comm f h, run_mono _ hh f]
        rfl

end Render
end Sampler
end Rawdio
