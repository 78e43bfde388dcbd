import Verif.Lemmas.SamplerQuiet

/-! # A sampler that plays its sample once -/

namespace Rawdio
namespace Sampler

variable {S : Type}

open TimedEvent EventProcessor

/-- The sampler has rendered `q` frames since the start, in at most `D` parts: its position is within
`D / 2` units of time of it. -/
def Near (s : Sampler S) (q D : Nat) : Prop :=
  |(s.position : ℚ) - q / s.sampleRate * 2 ^ 32| ≤ (D : ℚ) / 2

theorem fromSamples_near (n : Nat) (sr : Nat) :
    |((Timestamp.fromSamples (n : ℚ) sr : Int) : ℚ) - n / sr * 2 ^ 32| ≤ 1 / 2 := by
  have h := Timestamp.fromSamples_error n sr
  have e : (Timestamp.one : ℚ) = 2 ^ 32 := by norm_num [Timestamp.one]
  rw [e] at h
  exact h

theorem near_advanced {s : Sampler S} {q D : Nat} (h : s.Near q D) (n : Nat) :
    (s.advanced n).Near (q + n) (D + 1) := by
  unfold Near advanced Timestamp.incrementedBySamples at *
  simp only
  have h2 := fromSamples_near n s.sampleRate
  push_cast
  rw [abs_le] at *
  have e : ((q : ℚ) + n) / s.sampleRate * 2 ^ 32 = q / s.sampleRate * 2 ^ 32 + n / s.sampleRate * 2 ^ 32 := by
    ring
  rw [e]
  constructor <;> linarith [h.1, h.2, h2.1, h2.2]

/-- While the rounding of the position is small the sampler renders up to the end of the sample. -/
theorem renderFrameCount_near {s : Sampler S} (hs : s.Ok) (hl : s.loopPoints = none) {q D : Nat}
    (h : s.Near q D) (hq : q ≤ s.buffer.frames) (hD : (D + 2) * s.sampleRate ≤ 2 ^ 32) (r : Nat) :
    s.renderFrameCount r = min (s.buffer.frames - q) r := by
  have hsr : (0 : ℚ) < s.sampleRate := by exact_mod_cast hs.rate
  have hD' : ((D : ℚ) + 2) * s.sampleRate ≤ 2 ^ 32 := by exact_mod_cast hD
  have hN := fromSamples_near s.buffer.frames s.sampleRate
  have hr := fromSamples_near r s.sampleRate
  unfold Near at h
  rw [abs_le] at h hN hr
  obtain ⟨U, hU⟩ : ∃ U : ℚ, U = 2 ^ 32 / s.sampleRate := ⟨_, rfl⟩
  have hUD : ((D : ℚ) + 2) ≤ U := by rw [hU, le_div_iff₀ hsr]; exact hD'
  have eU : ∀ x : ℚ, x / s.sampleRate * 2 ^ 32 = x * U := by intro x; rw [hU]; ring
  rw [eU] at h hN hr
  have hD0 : (0 : ℚ) ≤ D := Nat.cast_nonneg D
  rcases lt_or_ge (s.position + Timestamp.fromSamples (r : ℚ) s.sampleRate) s.nextLoopPosition with h1 | h1
  · rw [renderFrameCount_all hs r h1]
    rw [nextLoopPosition_none hl] at h1
    have h1' : (s.position : ℚ) + ((Timestamp.fromSamples (r : ℚ) s.sampleRate : Int) : ℚ) <
        ((Timestamp.fromSamples (s.buffer.frames : ℚ) s.sampleRate : Int) : ℚ) := by exact_mod_cast h1
    have h2 : ((q : ℚ) + r) * U < s.buffer.frames * U + U := by linarith [h.1, hN.2, hr.1]
    have h3 : (q : ℚ) + r < s.buffer.frames + 1 := by
      by_contra hc
      push Not at hc
      have := mul_le_mul_of_nonneg_right hc (show (0 : ℚ) ≤ U by linarith)
      linarith
    have h4 : q + r < s.buffer.frames + 1 := by exact_mod_cast h3
    omega
  · rw [renderFrameCount_end r h1, nextLoopPosition_none hl]
    congr 1
    apply roundUsize_near
    rw [asSamples_eq, Nat.cast_sub hq]
    push_cast
    have e : ∀ x : ℚ, x * s.sampleRate / 2 ^ 32 = x / U := by
      intro x; rw [hU]; field_simp
    rw [e]
    have hU0 : 0 < U := by linarith
    have e2 : ((((Timestamp.fromSamples (s.buffer.frames : ℚ) s.sampleRate : Int) : ℚ)) - s.position) / U -
        ((s.buffer.frames : ℚ) - q) =
        (((Timestamp.fromSamples (s.buffer.frames : ℚ) s.sampleRate : Int) : ℚ) - s.position -
          (s.buffer.frames * U - q * U)) / U := by
      field_simp
    rw [e2, abs_div, abs_of_pos hU0, div_lt_iff₀ hU0, abs_lt]
    constructor <;> linarith [h.1, h.2, hN.1, hN.2]

theorem takeVoice_events (s : Sampler S) (ev : EventProcessor SamplerEvent) (p : Nat) :
    ({ s with events := ev } : Sampler S).takeVoice p = { s.takeVoice p with events := ev } := by
  unfold takeVoice
  simp only [stop]
  cases List.findIdx? Voice.isStopped (s.voices.map Voice.stop) <;> rfl

theorem start_events (s : Sampler S) (ev : EventProcessor SamplerEvent) (p d : Int) :
    ({ s with events := ev } : Sampler S).start p d = { s.start p d with events := ev } := by
  unfold Sampler.start assignVoice
  simp only
  have ha : ({ s with events := ev } : Sampler S).activePosition = s.activePosition := rfl
  rw [ha]
  by_cases h : s.activePosition = some (roundUsize (Timestamp.asSamples (p + d) s.sampleRate))
  · rw [if_pos h, if_pos h]
  · rw [if_neg h, if_neg h, takeVoice_events]

theorem processEvent_ev (s : Sampler S) (ev : EventProcessor SamplerEvent) (e : SamplerEvent) (t : Int) :
    ({ s with events := ev } : Sampler S).processEvent e t = { s.processEvent e t with events := ev } := by
  unfold processEvent
  split
  · exact start_events s ev _ _
  · exact start_events s ev _ _
  all_goals rfl

theorem finishSample_ev (s : Sampler S) (ev : EventProcessor SamplerEvent) :
    ({ s with events := ev } : Sampler S).finishSample = { s.finishSample with events := ev } := by
  unfold finishSample
  simp only
  split
  · unfold loopBack assignVoice
    simp only
    have ha : ({ s with events := ev, completedLoops := s.completedLoops + 1 } : Sampler S).activePosition =
      s.activePosition := rfl
    have hb : ({ s with completedLoops := s.completedLoops + 1 } : Sampler S).activePosition =
      s.activePosition := rfl
    rename_i a _ _
    rw [ha, hb]
    by_cases h : s.activePosition = some (roundUsize (Timestamp.asSamples a s.sampleRate))
    · rw [if_pos h, if_pos h]
    · rw [if_neg h, if_neg h]
      exact takeVoice_events { s with completedLoops := s.completedLoops + 1 } ev _
  · rfl

section Render

variable [Add S] [Mul S] [One S]

/-- A part of a block of a sampler without loop. -/
theorem processSample_near {s : Sampler S} (hs : s.Ok) (hl : s.loopPoints = none) {q D : Nat}
    (h : s.Near q D) (hq : q ≤ s.buffer.frames) (hD : (D + 3) * s.sampleRate ≤ 2 ^ 32) (w : Window)
    (out : Grid S) (hw : w.offset + w.count ≤ out.frames) :
    ∃ f t, processSample w f 0 s out =
        .ok (t, s.mixed out ⟨w.offset, min (s.buffer.frames - q) w.count⟩) ∧ t.Ok ∧
      t.voices = s.voices.map (fun v => v.after s.fade (min (s.buffer.frames - q) w.count)) ∧
      t.activeVoice = s.activeVoice ∧ SameRest s t ∧
      t.Near (q + min (s.buffer.frames - q) w.count) (D + 1) := by
  have hD2 : (D + 2) * s.sampleRate ≤ 2 ^ 32 := le_trans (Nat.mul_le_mul_right _ (by omega)) hD
  have hid : s.voices.map (fun v => v.after s.fade 0) = s.voices := by
    rw [List.map_congr_left (g := id)]
    · simp
    · intro v hv; exact Voice.after_zero _ _ (hs.voices v hv)
  have hD1 : s.Near q (D + 1) := by
    unfold Near at *
    push_cast
    linarith
  have hz : s.mixed out ⟨w.offset, 0⟩ = out := by
    refine Grid.ext' (g := s.mixed out ⟨w.offset, 0⟩) (h := out) rfl rfl ?_
    intro c f
    rw [mixed, Grid.changed_mk, if_neg (by omega)]
  by_cases hc : w.count = 0
  · refine ⟨0, s, ?_, hs, ?_, rfl, SameRest.refl s, ?_⟩
    · rw [processSample_done (by omega), hc, Nat.min_zero, hz]
    · rw [hc, Nat.min_zero, hid]
    · rw [hc, Nat.min_zero]; exact hD1
  · have hc' : 0 < w.count := Nat.pos_of_ne_zero hc
    have hr := renderFrameCount_near hs hl h hq hD2 w.count
    by_cases hn : s.buffer.frames - q = 0
    · rw [hn, Nat.zero_min] at hr ⊢
      refine ⟨1, s, ?_, hs, hid.symm, rfl, SameRest.refl s, hD1⟩
      rw [processSample_break hc' (by simpa using hr) hl, hz]
    · have hstep := processSample_step (fuel := 1) (fp := 0) hs hw (by omega)
        (by rw [Nat.sub_zero, hr]; omega)
      simp only [Nat.sub_zero, Nat.zero_add, Nat.add_zero] at hstep
      rw [hr] at hstep
      refine ⟨2, s.advanced (min (s.buffer.frames - q) w.count), ?_, advanced_ok hs _, rfl, rfl,
        advanced_same s _, near_advanced h _⟩
      rw [hstep]
      rcases Nat.le_total w.count (s.buffer.frames - q) with h1 | h1
      · rw [Nat.min_eq_right h1, processSample_done (le_refl _)]
      · rcases Nat.eq_or_lt_of_le h1 with h2 | h2
        · rw [h2, Nat.min_self, processSample_done (le_refl _)]
        · rw [Nat.min_eq_left h1]
          refine processSample_break (by omega) ?_ hl
          have hs' := advanced_same s (s.buffer.frames - q)
          rw [renderFrameCount_near (advanced_ok hs _) hl (near_advanced h _)
            (by rw [hs'.buffer]; omega) (by rw [hs'.sampleRate]; omega), hs'.buffer]
          omega

/-- The queue of events plays no part in rendering. -/
theorem processSample_ev (w : Window) (ev : EventProcessor SamplerEvent) (fuel : Nat) :
    ∀ (fp : Nat) (s : Sampler S) (out : Grid S),
    processSample w fuel fp { s with events := ev } out =
      (processSample w fuel fp s out).map (fun r => ({ r.1 with events := ev }, r.2)) := by
  induction fuel with
  | zero =>
    intro fp s out
    unfold processSample
    split <;> rfl
  | succ fuel ih =>
    intro fp s out
    rw [processSample, processSample]
    have hn : ({ s with events := ev } : Sampler S).renderFrameCount (w.count - fp) =
        s.renderFrameCount (w.count - fp) := rfl
    simp only [hn]
    split
    · split
      · rw [finishSample_ev, ih]
      · split
        · rfl
        · simp only [processVoices, bind]
          cases renderVoices s.buffer s.fade ⟨w.offset + fp, s.renderFrameCount (w.count - fp)⟩ s.voices
              out with
          | error e => rfl
          | ok r =>
            simp only [Except.bind]
            exact ih _ { s with
              voices := r.1
              position := Timestamp.incrementedBySamples s.position (s.renderFrameCount (w.count - fp))
                s.sampleRate } _
    · rfl

/-- A block with one event, which is due at its start, is a block without events after it. -/
theorem single_event {s : Sampler S} (hs : s.Ok) (hp : s.events.pending = [])
    (hch : s.events.channel = []) (e : SamplerEvent) (f : Nat) (out : Grid S) (start : Int)
    (hn : 0 < out.frames) (ht : e.time ≤ start) :
    (s.sendAll [e]).processAudio f out start = (s.processEvent e start).processAudio f out start := by
  obtain ⟨ev, hev⟩ : ∃ ev : EventProcessor SamplerEvent,
    ev = { s.events with pending := [e], channel := [] } := ⟨_, rfl⟩
  have hre : (s.sendAll [e]).events.receiveEvents = ev := by
    rw [sendAll_eq, hev]
    have h1 : ([e]).foldl push [] = [e] := by
      simp only [List.foldl_cons, List.foldl_nil, push, List.nil_append, ite_self]
    simp only [hch, List.nil_append, receiveEvents, hp, h1, List.mergeSort_singleton]
  have hx : ({ s.sendAll [e] with events := ev } : Sampler S) = { s with events := ev } := by
    rw [sendAll_eq]
  have hpe := processEvent_events s e start
  have hrc : (s.processEvent e start).events.receiveEvents = s.events := by
    rw [hpe]
    unfold receiveEvents
    rw [hch]
  have hsv : ({ s.processEvent e start with events := s.events } : Sampler S) = s.processEvent e start := by
    rw [← hpe]
  rw [processAudio_eq, processAudio_eq, hre, hrc, hx, hsv, hp, hev]
  simp only
  rw [← hev, blockLoop_first (s := { s with events := ev }) hs.rate hs.rate' hn ht f, processEvent_ev,
    blockLoop_nil _ _ _ _ hn, blockLoop_nil _ _ _ _ hn, processSample_ev]
  cases processSample ⟨0, out.frames⟩ f 0 (s.processEvent e start) out with
  | error e => rfl
  | ok r =>
    simp only [Except.map, Except.bind]
    rw [hch]

/-- A block without events. -/
theorem plain_block {s : Sampler S} (hs : s.Ok) (hl : s.loopPoints = none) {q D : Nat}
    (h : s.Near q D) (hq : q ≤ s.buffer.frames) (hD : (D + 3) * s.sampleRate ≤ 2 ^ 32)
    (hp : s.events.pending = []) (hch : s.events.channel = []) (out : Grid S) (start : Int)
    (hn : 0 < out.frames) :
    ∃ f t, processAudio f s out start =
        .ok (t, s.mixed out ⟨0, min (s.buffer.frames - q) out.frames⟩) ∧ t.Ok ∧
      t.voices = s.voices.map (fun v => v.after s.fade (min (s.buffer.frames - q) out.frames)) ∧
      t.activeVoice = s.activeVoice ∧ SameFixed s t ∧ t.loopPoints = none ∧
      t.events.pending = [] ∧ t.events.channel = [] ∧
      t.Near (q + min (s.buffer.frames - q) out.frames) (D + 1) := by
  obtain ⟨f, t, h1, h2, h3, h4, h5, h6⟩ := processSample_near hs hl h hq hD ⟨0, out.frames⟩ out
    (by simp only; omega)
  have hr : s.events.receiveEvents = s.events := by
    unfold receiveEvents
    rw [hch]
  refine ⟨f, { t with events := { s.events with pending := [] } }, ?_, ⟨h2.fade, h2.rate, h2.rate', h2.voices⟩,
    h3, h4, ⟨h5.fade, h5.buffer, h5.sampleRate⟩, h5.loopPoints.trans hl, rfl, hch, h6⟩
  have hsv : ({ s with events := s.events } : Sampler S) = s := rfl
  rw [processAudio_eq, hr, hp, hsv, blockLoop_nil _ _ _ _ hn, h1]
  rfl

/-- A block in which the only event is a request to start at once. -/
theorem start_block {s : Sampler S} (hs : s.Ok) (hl : s.loopPoints = none)
    (hD : 3 * s.sampleRate ≤ 2 ^ 32) (hp : s.events.pending = []) (hch : s.events.channel = [])
    (n : Nat) (out : Grid S) (start : Int) (hn : 0 < out.frames) (h0 : 0 ≤ start) :
    ∃ f t, processAudio f (s.sendAll [.startNow n]) out start =
        .ok (t, (s.start 0 0).mixed out ⟨0, min s.buffer.frames out.frames⟩) ∧ t.Ok ∧
      t.voices = (s.start 0 0).voices.map (fun v => v.after s.fade (min s.buffer.frames out.frames)) ∧
      t.activeVoice = (s.start 0 0).activeVoice ∧ SameFixed s t ∧ t.loopPoints = none ∧
      t.events.pending = [] ∧ t.events.channel = [] ∧
      t.Near (min s.buffer.frames out.frames) 1 := by
  have hsame := start_same s 0 0
  have hsend : s.sendAll [.startNow n] =
      { s with events := { s.events with channel := [.startNow n] } } := by
    rw [sendAll_eq, hch]; rfl
  have hre : (s.sendAll [.startNow n]).events.receiveEvents =
      { s.events with pending := [.startNow n], channel := [] } := by
    rw [hsend]
    have h1 : ([SamplerEvent.startNow n]).foldl push [] = [SamplerEvent.startNow n] := rfl
    simp only [receiveEvents, hp, h1, List.mergeSort_singleton]
  obtain ⟨ev, hev⟩ : ∃ ev, ev = (s.sendAll [.startNow n]).events.receiveEvents := ⟨_, rfl⟩
  obtain ⟨x, hx⟩ : ∃ x : Sampler S, x = { s with events := ev } := ⟨_, rfl⟩
  have hxs : x.start 0 0 = { s.start 0 0 with events := ev } := by rw [hx]; exact start_events s _ 0 0
  have hxok : x.Ok := by rw [hx]; exact ⟨hs.fade, hs.rate, hs.rate', hs.voices⟩
  have hyok : (x.start 0 0).Ok := start_ok hxok 0 0
  have hxsame := start_same x 0 0
  have hxb : x.buffer = s.buffer := by rw [hx]
  have hxr : x.sampleRate = s.sampleRate := by rw [hx]
  have hxl : x.loopPoints = none := by rw [hx]; exact hl
  have hxf : x.fade = s.fade := by rw [hx]
  obtain ⟨f, t, h1, h2, h3, h4, h5, h6⟩ := processSample_near hyok (hxsame.2.2.2.2.trans hxl)
    (q := 0) (D := 0) (by simp [Near, Sampler.start]) (Nat.zero_le _)
    (by rw [hxsame.2.2.2.1, hxr]; omega) ⟨0, out.frames⟩ out (by simp only; omega)
  simp only [Nat.sub_zero, Nat.zero_add] at h1 h3 h6
  rw [hxsame.2.1, hxb] at h1 h3 h6
  rw [hxsame.1, hxf] at h3
  have hm : (x.start 0 0).mixed out = (s.start 0 0).mixed out := by rw [hxs]; rfl
  have hv : (x.start 0 0).voices = (s.start 0 0).voices := by rw [hxs]
  have ha : (x.start 0 0).activeVoice = (s.start 0 0).activeVoice := by rw [hxs]
  rw [hm] at h1
  rw [hv] at h3
  refine ⟨f, { t with events := { s.events with pending := [], channel := [] } }, ?_,
    ⟨h2.fade, h2.rate, h2.rate', h2.voices⟩, h3, h4.trans ha,
    ⟨h5.fade.trans (hxsame.1.trans hxf), h5.buffer.trans (hxsame.2.1.trans hxb),
      h5.sampleRate.trans (hxsame.2.2.2.1.trans hxr)⟩,
    h5.loopPoints.trans (hxsame.2.2.2.2.trans hxl), rfl, rfl, h6⟩
  have hxx : ({ s.sendAll [.startNow n] with events := (s.sendAll [.startNow n]).events.receiveEvents } :
      Sampler S) = x := by rw [hx, hev, hsend]
  rw [processAudio_eq, hxx, hre]
  simp only
  rw [blockLoop_first hxok.rate hxok.rate' hn (by exact h0) f]
  have he : x.processEvent (.startNow n) start = x.start 0 0 := rfl
  rw [he, blockLoop_nil _ _ _ _ hn, h1]
  rfl

/-- A sampler that has played `p` frames of its sample since it was started at its beginning. -/
structure Once (s : Sampler S) (p D : Nat) : Prop where
  ok : s.Ok
  loop : s.loopPoints = none
  pending : s.events.pending = []
  channel : s.events.channel = []
  near : s.Near (min p s.buffer.frames) D
  voices : ∃ vs, s.voices = ⟨min p s.buffer.frames, .playing⟩ :: vs ∧ ∀ v ∈ vs, v.phase = .stopped

theorem mixVoices_stopped (fade : Fade S) (src : Grid S) {vs : List Voice}
    (h : ∀ v ∈ vs, v.phase = .stopped) (c i : Nat) (o : S) : mixVoices fade src vs c i o = o :=
  mixVoices_silent (m := 0) (fun v hv => Or.inl (h v hv)) (Nat.zero_le _) c o

theorem mixed_once {s : Sampler S} {q : Nat} {vs : List Voice}
    (h1 : s.voices = ⟨q, .playing⟩ :: vs) (h2 : ∀ v ∈ vs, v.phase = .stopped) (p : Nat)
    (hq : q = min p s.buffer.frames) (b : SamplerBlock S) :
    s.mixed b.out ⟨0, min (s.buffer.frames - q) b.out.frames⟩ :: playedFrom s.buffer (p + b.out.frames) [] =
      playedFrom s.buffer p [b] := by
  simp only [playedFrom, List.cons.injEq, and_true]
  refine Grid.ext' rfl rfl fun c f => ?_
  rw [mixed, Grid.changed_mk, h1]
  simp only [Nat.sub_zero, Nat.zero_add, Nat.zero_le, true_and]
  have e : mixVoices s.fade s.buffer (⟨q, .playing⟩ :: vs) c f (b.out.val c f) =
      mixVoices s.fade s.buffer vs c f ((Heard.plain (q + f)).mix s.buffer c (b.out.val c f)) := rfl
  rw [e, mixVoices_stopped _ _ h2]
  simp only [Heard.mix]
  by_cases hc : c < b.out.channels ∧ c < s.buffer.channels ∧ f < b.out.frames ∧ p + f < s.buffer.frames
  · rw [if_pos hc, if_pos ⟨hc.1, by omega⟩, if_pos ⟨hc.2.1, by omega⟩]
    congr 2
    omega
  · rw [if_neg hc]
    split
    · rw [if_neg]
      intro h
      apply hc
      refine ⟨by omega, h.1, by omega, by omega⟩
    · rfl

theorem stopped_after (fade : Fade S) {vs : List Voice} (h : ∀ v ∈ vs, v.phase = .stopped) (n : Nat) :
    ∀ v ∈ vs.map (fun v => v.after fade n), v.phase = .stopped := by
  intro v hv
  rw [List.mem_map] at hv
  obtain ⟨u, hu, rfl⟩ := hv
  have := h u hu
  obtain ⟨p, ph⟩ := u
  simp only at this
  subst this
  rfl

theorem once_run (bs : List (SamplerBlock S)) : ∀ {s : Sampler S} {p D : Nat}, s.Once p D →
    (∀ b ∈ bs, b.sent = [] ∧ 0 < b.out.frames) → (D + bs.length + 2) * s.sampleRate ≤ 2 ^ 32 →
    ∃ f t, run f s bs = .ok (t, playedFrom s.buffer p bs) := by
  induction bs with
  | nil => intro s p D _ _ _; exact ⟨0, s, rfl⟩
  | cons b bs ih =>
    intro s p D h hb hD
    obtain ⟨vs, hv, hst⟩ := h.voices
    obtain ⟨f, t, h1, h2, h3, h4, h5, h6, h7, h8, h9⟩ := plain_block h.ok h.loop h.near (Nat.min_le_right _ _)
      (le_trans (Nat.mul_le_mul_right _ (by simp only [List.length_cons]; omega)) hD) h.pending h.channel
      b.out b.start (hb b List.mem_cons_self).2
    have hm := mixed_once hv hst p rfl b
    have he : min p s.buffer.frames + min (s.buffer.frames - min p s.buffer.frames) b.out.frames =
        min (p + b.out.frames) s.buffer.frames := by omega
    have ht : t.Once (p + b.out.frames) (D + 1) := by
      refine ⟨h2, h6, h7, h8, ?_, ?_⟩
      · rw [h5.buffer, ← he]; exact h9
      · refine ⟨vs.map (fun v => v.after s.fade
          (min (s.buffer.frames - min p s.buffer.frames) b.out.frames)), ?_, stopped_after s.fade hst _⟩
        rw [h3, hv, List.map_cons, h5.buffer, ← he]
        rfl
    obtain ⟨g, u, hu⟩ := ih ht (fun c hc => hb c (List.mem_cons_of_mem _ hc))
      (by rw [h5.sampleRate]
          refine le_trans (Nat.mul_le_mul_right _ ?_) hD
          simp only [List.length_cons]; omega)
    refine ⟨f + g, u, ?_⟩
    rw [run, (hb b List.mem_cons_self).1]
    simp only [bind]
    have hs0 : s.sendAll [] = s := rfl
    rw [hs0, processAudio_mono h1 g]
    simp only [Except.bind]
    rw [Nat.add_comm f g, run_mono bs hu f, h5.buffer]
    simp only [playedFrom, List.cons.injEq, and_true] at hm
    simp only [playedFrom]
    rw [hm]

end Render
end Sampler
end Rawdio
