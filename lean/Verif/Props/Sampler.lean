import Verif.Lemmas.SamplerExact
import Verif.Lemmas.SamplerQuiet

/-! # Properties of the sampler (C28, C40, C42, C62, C63, C64) -/

namespace Rawdio
namespace Sampler

open TimedEvent EventProcessor

section Examples

/-- A sample of one channel and four frames for examples. -/
def exampleBuffer : Grid Int := ⟨1, 4, fun _ f => 10 * (f + 1)⟩

/-- A fade of three frames for examples. -/
def exampleFade : Fade Int := ⟨[0, 1, 2]⟩

/-- A block of eight frames at time `t` for examples. -/
def exampleBlock (sent : List SamplerEvent) (t : Int) : SamplerBlock Int := ⟨sent, t, ⟨1, 8, fun _ _ => 0⟩⟩

theorem example_good : (new 48000 exampleBuffer exampleFade).Good :=
  new_good 48000 (by decide) (by decide) _ _ (by decide)

end Examples

variable {S : Type} [Add S] [Mul S] [One S]

/-! ## C28: cancelling all events -/

/-- C28: the events sent before a cancel-all, and those that were waiting for their time, make no
difference whatsoever: the block is processed as if they had never been sent. -/
theorem C28_earlier_events_dropped (s : Sampler S) (hch : s.events.channel = [])
    (earlier later : List SamplerEvent) (n fuel : Nat) (out : Grid S) (start : Int) :
    (s.sendAll (earlier ++ .cancelAll n :: later)).processAudio fuel out start =
      (({ s with events := { s.events with pending := [] } } : Sampler S).sendAll
        (.cancelAll n :: later)).processAudio fuel out start := by
  have h1 : (s.sendAll (earlier ++ .cancelAll n :: later)).events.receiveEvents =
      { s.events with
        pending := (later.foldl push [SamplerEvent.cancelAll n]).mergeSort before, channel := [] } := by
    rw [sendAll_eq]
    simp only [hch, List.nil_append]
    rw [← push_clears (SamplerEvent.cancelAll n) rfl earlier later s.events.pending]
    cases earlier <;> rfl
  have h2 : (({ s with events := { s.events with pending := [] } } : Sampler S).sendAll
      (.cancelAll n :: later)).events.receiveEvents =
      { s.events with
        pending := (later.foldl push [SamplerEvent.cancelAll n]).mergeSort before, channel := [] } := by
    rw [sendAll_eq]
    simp only [hch, List.nil_append]
    rfl
  rw [processAudio_eq, processAudio_eq, h1, h2, sendAll_eq, sendAll_eq]

/-- The example: a start waits for its time, another is sent before the cancel-all. -/
example (fuel : Nat) (out : Grid Int) :
    (({ new 48000 exampleBuffer exampleFade with
        events := ⟨[.start 0 500 0], [], 48000⟩ } : Sampler Int).sendAll
          ([.startNow 1] ++ .cancelAll 2 :: [.start 3 0 0])).processAudio fuel out 0 =
      ((new 48000 exampleBuffer exampleFade).sendAll (.cancelAll 2 :: [.start 3 0 0])).processAudio
        fuel out 0 :=
  C28_earlier_events_dropped _ rfl [.startNow 1] [.start 3 0 0] 2 fuel out 0

omit [Add S] [Mul S] [One S] in
/-- C28: the events sent after the last cancel-all are all kept, and are processed after it when their
times are not negative and they were numbered after it. -/
theorem C28_later_events_kept (s : Sampler S) (hch : s.events.channel = [])
    (earlier later : List SamplerEvent) (n : Nat) (hl : ∀ e ∈ later, e.eventType ≠ .cancelAll)
    (ht : ∀ e ∈ later, 0 ≤ e.time) (hn : ∀ e ∈ later, n ≤ e.sequenceNumber) :
    ∃ rest, (s.sendAll (earlier ++ .cancelAll n :: later)).events.receiveEvents.pending =
        .cancelAll n :: rest ∧ rest.Perm later ∧ InTimeOrder rest := by
  have hc : ∀ e ∈ later, clearsQueue e = false := by
    intro e he
    have := hl e he
    simpa [clearsQueue] using this
  have h1 : (s.sendAll (earlier ++ .cancelAll n :: later)).events.receiveEvents.pending =
      (.cancelAll n :: later : List SamplerEvent).mergeSort before := by
    rw [sendAll_eq]
    simp only [hch, List.nil_append]
    have h2 := push_clears (SamplerEvent.cancelAll n) rfl earlier later s.events.pending
    rw [foldl_push later hc] at h2
    cases earlier with
    | nil => simp only [List.nil_append] at h2 ⊢; simp only [receiveEvents, h2]; rfl
    | cons d ds => simp only [List.cons_append] at h2 ⊢; simp only [receiveEvents, h2]; rfl
  have hle : ∀ e ∈ later, before (SamplerEvent.cancelAll n) e = true := by
    intro e he
    have a := ht e he
    have b := hn e he
    have h : (0 : Int) < e.time ∨ ((0 : Int) = e.time ∧ n ≤ e.sequenceNumber) := by omega
    simp only [before, Bool.or_eq_true, Bool.and_eq_true, decide_eq_true_eq]
    exact h
  have htr : ∀ a b c : SamplerEvent, before a b = true → before b c = true → before a c = true := by
    intro a b c
    simp only [before, Bool.or_eq_true, Bool.and_eq_true, decide_eq_true_eq]
    omega
  have hto : ∀ a b : SamplerEvent, (before a b || before b a) = true := by
    intro a b
    simp only [before, Bool.or_eq_true, Bool.and_eq_true, decide_eq_true_eq]
    omega
  refine ⟨later.mergeSort before, ?_, List.mergeSort_perm _ _, ?_⟩
  · rw [h1]
    obtain ⟨l1, l2, e1, e2, e3⟩ := List.mergeSort_cons htr hto (SamplerEvent.cancelAll n) later
    have : l1 = [] := by
      rw [List.eq_nil_iff_forall_not_mem]
      intro x hx
      have h1 := e3 x hx
      have h2 : x ∈ later := by
        have : x ∈ later.mergeSort before := by rw [e2]; exact List.mem_append_left _ hx
        exact List.mem_mergeSort.mp this
      rw [hle x h2] at h1
      cases h1
    rw [e1, e2, this]
    rfl
  · have := List.pairwise_mergeSort htr hto later
    exact this.imp (fun h => (before_iff _ _).mp h)

example : ∃ rest, ((new 48000 exampleBuffer exampleFade).sendAll
      ([.startNow 0] ++ .cancelAll 1 :: [.start 2 500 0, .startNow 3])).events.receiveEvents.pending =
        .cancelAll 1 :: rest ∧ rest.Perm [.start 2 500 0, .startNow 3] ∧ InTimeOrder rest :=
  C28_later_events_kept _ rfl [.startNow 0] [.start 2 500 0, .startNow 3] 1
    (by simp [SamplerEvent.start, SamplerEvent.startNow])
    (by simp [SamplerEvent.start, SamplerEvent.startNow, Timestamp.zero])
    (by simp [SamplerEvent.start, SamplerEvent.startNow])

/-- C28: after a cancel-all, and as long as nothing starts playback again, nothing is heard any more once
the fade-out has ended, whatever was playing, looping or scheduled before. -/
theorem C28_silences (s : Sampler S) (hs : s.Ok) (hch : s.events.channel = [])
    (earlier : List SamplerEvent) (n : Nat) (b : SamplerBlock S) (bs : List (SamplerBlock S))
    (hb : BlocksOk s.sampleRate (b :: bs)) (hsent : b.sent = earlier ++ [.cancelAll n])
    (h0 : 0 ≤ b.start) (he : ∀ c ∈ bs, ∀ e ∈ c.sent, e.Quieting) :
    ∃ f t outs, run f s (b :: bs) = .ok (t, outs) ∧
      SilentFrom s.fade.values.length (b :: bs) outs := by
  have hn := (hb b List.mem_cons_self).1
  obtain ⟨x, hx⟩ : ∃ x : Sampler S, x = { s.sendAll b.sent with
        events := (s.sendAll b.sent).events.receiveEvents } := ⟨_, rfl⟩
  have hxo : x.Ok := by rw [hx, sendAll_eq]; exact ⟨hs.fade, hs.rate, hs.rate', hs.voices⟩
  have hxf : SameFixed s x := by rw [hx, sendAll_eq]; exact ⟨rfl, rfl, rfl⟩
  have hpend : (s.sendAll b.sent).events.receiveEvents.pending = [.cancelAll n] := by
    rw [sendAll_eq, hsent]
    simp only [hch, List.nil_append]
    have h2 := push_clears (SamplerEvent.cancelAll n) rfl earlier [] s.events.pending
    cases earlier with
    | nil => simp only [List.nil_append] at h2 ⊢; simp only [receiveEvents, h2]; simp
    | cons d ds => simp only [List.cons_append] at h2 ⊢; simp only [receiveEvents, h2]; simp
  have hq : (x.processEvent (.cancelAll n) b.start).Quiet s.fade.values.length := by
    have h1 : x.processEvent (.cancelAll n) b.start = ({ x with loopPoints := none } : Sampler S).stop := rfl
    rw [h1, ← hxf.fade]
    exact stop_quiet (s := { x with loopPoints := none }) ⟨hxo.fade, hxo.rate, hxo.rate', hxo.voices⟩ rfl
  refine quiet_from hq (hxf.trans (processEvent_fixed x _ _)) (rest := []) ?_ List.Pairwise.nil
    (by simp) hb he
  intro f
  rw [hpend, ← hx, blockLoop_first hxo.rate hxo.rate' hn (by exact h0) f]

/-- The example: a start, a loop and a cancel-all sent together. -/
example : ∃ f t outs, run f (new 48000 exampleBuffer exampleFade)
      [exampleBlock ([.startNow 0, .enableLoop 1 0 500] ++ [.cancelAll 2]) 0,
        exampleBlock [.stopNow 3] 500] = .ok (t, outs) ∧
    SilentFrom 3 [exampleBlock ([.startNow 0, .enableLoop 1 0 500] ++ [.cancelAll 2]) 0,
        exampleBlock [.stopNow 3] 500] outs :=
  C28_silences _ example_good.ok rfl [.startNow 0, .enableLoop 1 0 500] 2 _ _
    (by simp [BlocksOk, exampleBlock, new]) rfl (by simp [exampleBlock])
    (by simp [exampleBlock, SamplerEvent.Quieting, SamplerEvent.stopNow])

/-! ## C40: a start request is heard -/

/-- C40, the part that holds: in every history, a start request is honoured when one of the voices is
silent: afterwards a voice plays, or fades in, from the position asked for.  What is missing: when both
voices are fading out the request is dropped, see `C40_start_is_heard_violated`. -/
theorem C40_start_is_heard_partial (sr : Nat) (h0 : 0 < sr) (h1 : sr < 2 ^ 32) (buffer : Grid S)
    (fade : Fade S) (hL : 0 < fade.values.length) (bs : List (SamplerBlock S)) (hb : BlocksOk sr bs)
    (he : ∀ b ∈ bs, ∀ e ∈ b.sent, ProperEvent e) (fuel : Nat) (s : Sampler S) (outs : List (Grid S))
    (hrun : run fuel (new sr buffer fade) bs = .ok (s, outs)) (p t current : Int) (n : Nat)
    (hfree : ∃ v ∈ s.voices, v.phase = .stopped) :
    ∃ v ∈ (s.processEvent (.start n t p) current).voices, v.Sounding ∧
      v.position = roundUsize (Timestamp.asSamples (p + (current - t)) sr) := by
  obtain ⟨f, u, outs', h2, h3, h4⟩ := good_run bs (new_good sr h0 h1 buffer fade hL) hb he
  have := run_unique hrun h2
  injection this with e1 e2
  subst e1
  have h5 := start_sounding h3.active p (current - t) hfree
  rw [h4.sampleRate] at h5
  exact h5

/-- The example: the very first start. -/
example : ∃ v ∈ ((new 48000 exampleBuffer exampleFade).processEvent (.start 0 0 0) 0).voices,
    v.Sounding ∧ v.position = 0 := by
  have := C40_start_is_heard_partial 48000 (by decide) (by decide) exampleBuffer exampleFade (by decide)
    [] (by simp [BlocksOk]) (by simp) 0 _ _ rfl 0 0 0 0 ⟨Voice.default, by simp [new], rfl⟩
  have e : roundUsize (Timestamp.asSamples (0 + (0 - 0)) 48000) = 0 :=
    roundUsize_eq_zero (by norm_num [Timestamp.asSamples, Timestamp.asSeconds])
  rwa [e] at this

/-- C40: a start request can be dropped altogether.  A sample that is shorter than the fade is started
three times, in three blocks as far apart as one likes, each long enough for the whole sample.  The third
time nothing at all is added to the output: the fade-outs of the first two starts only progress while a
sample plays, so that both voices are still taken. -/
theorem C40_start_is_heard_violated (sr : Nat) (h0 : 0 < sr) (h1 : 3 * sr ≤ 2 ^ 32) (buffer : Grid S)
    (fade : Fade S) (hN : 0 < buffer.frames) (hL : buffer.frames < fade.values.length)
    (b1 b2 b3 : SamplerBlock S) (hs1 : b1.sent = [.startNow 0]) (hs2 : b2.sent = [.startNow 1])
    (hs3 : b3.sent = [.startNow 2]) (hb : ∀ b ∈ [b1, b2, b3], buffer.frames ≤ b.out.frames)
    (ht : ∀ b ∈ [b1, b2, b3], 0 ≤ b.start) :
    ∃ f t o1 o2, run f (new sr buffer fade) [b1, b2, b3] = .ok (t, [o1, o2, b3.out]) := by
  obtain ⟨s0, hs0⟩ : ∃ s0 : Sampler S, s0 = new sr buffer fade := ⟨_, rfl⟩
  have g0 : s0.Good := by rw [hs0]; exact new_good sr h0 (by omega) buffer fade (by omega)
  have hf0 : s0.fade = fade := by rw [hs0]; rfl
  have hbu0 : s0.buffer = buffer := by rw [hs0]; rfl
  have hr0 : s0.sampleRate = sr := by rw [hs0]; rfl
  have hmin : ∀ b ∈ [b1, b2, b3], min buffer.frames b.out.frames = buffer.frames :=
    fun b h => Nat.min_eq_left (hb b h)
  have m1 := hmin b1 (by simp)
  have m2 := hmin b2 (by simp)
  have m3 := hmin b3 (by simp)
  -- the first start
  obtain ⟨f1, s1, r1, k1, v1, a1, x1, l1, p1, c1, n1⟩ := start_block (s := s0) g0.ok
    (by rw [hs0]; rfl) (by rw [hr0]; exact h1) (by rw [hs0]; rfl) (by rw [hs0]; rfl) 0 b1.out b1.start
    (by have := hb b1 (by simp); omega) (ht b1 (by simp))
  obtain ⟨e1, e1'⟩ := start_free (s := s0) (by rw [hs0]; simp [activePosition, new])
  have q1 : (s0.takeVoice 0).voices = [⟨0, .playing⟩, Voice.default] ∧
      (s0.takeVoice 0).activeVoice = some 0 := by rw [hs0]; exact ⟨rfl, rfl⟩
  rw [e1, q1.1, hbu0, m1, hf0] at v1
  rw [e1', q1.2] at a1
  have v1' : s1.voices = [⟨buffer.frames, .playing⟩, Voice.default] := by
    rw [v1]
    simp only [List.map_cons, List.map_nil, Voice.after, Voice.default, Nat.zero_add]
  -- the second start
  have hf1 := x1.fade.trans hf0
  have hbu1 := x1.buffer.trans hbu0
  have hr1 := x1.sampleRate.trans hr0
  obtain ⟨f2, s2, r2, k2, v2, a2, x2, l2, p2, c2, n2⟩ := start_block (s := s1) k1 l1
    (by rw [hr1]; exact h1) p1 c1 1 b2.out b2.start
    (by have := hb b2 (by simp); omega) (ht b2 (by simp))
  obtain ⟨e2, e2'⟩ := start_free (s := s1) (by
    unfold activePosition
    rw [a1, v1']
    simp
    omega)
  have q2 : (s1.takeVoice 0).voices = [⟨buffer.frames, .fadingOut 0⟩, ⟨0, .playing⟩] ∧
      (s1.takeVoice 0).activeVoice = some 1 := by
    unfold takeVoice stop
    simp only [v1', List.map_cons, List.map_nil, Voice.stop, Voice.default]
    exact ⟨rfl, rfl⟩
  rw [e2, q2.1, hbu1, m2, hf1] at v2
  rw [e2', q2.2] at a2
  have v2' : s2.voices = [⟨buffer.frames + buffer.frames, .fadingOut buffer.frames⟩,
      ⟨buffer.frames, .playing⟩] := by
    rw [v2]
    simp only [List.map_cons, List.map_nil]
    rw [Voice.after_out_lt fade (by omega)]
    simp only [Voice.after, Nat.zero_add]
  -- the third start
  have hf2 := x2.fade.trans hf1
  have hbu2 := x2.buffer.trans hbu1
  have hr2 := x2.sampleRate.trans hr1
  obtain ⟨f3, s3, r3, k3, v3, a3, x3, l3, p3, c3, n3⟩ := start_block (s := s2) k2 l2
    (by rw [hr2]; exact h1) p2 c2 2 b3.out b3.start
    (by have := hb b3 (by simp); omega) (ht b3 (by simp))
  obtain ⟨e3, e3'⟩ := start_free (s := s2) (by
    unfold activePosition
    rw [a2, v2']
    simp
    omega)
  have q3 : (s2.takeVoice 0).voices = [⟨buffer.frames + buffer.frames, .fadingOut buffer.frames⟩,
      ⟨buffer.frames, .fadingOut 0⟩] := by
    unfold takeVoice stop
    simp only [v2', List.map_cons, List.map_nil, Voice.stop]
    rfl
  rw [mixed_id (by
    rw [e3, q3, (start_same s2 0 0).2.1, hbu2]
    intro v hv
    simp only [List.mem_cons, List.not_mem_nil, or_false] at hv
    rcases hv with rfl | rfl <;> simp)] at r3
  rw [← hs1] at r1
  rw [← hs2] at r2
  rw [← hs3] at r3
  have z3 := run_cons r3 (show run 0 s3 [] = .ok (s3, []) from rfl)
  rw [← hs0]
  exact ⟨_, s3, _, _, run_cons r1 (run_cons r2 z3)⟩

/-- The witness: a one-frame sample, a fade of two frames, starts one, two and three seconds into the
stream.  The third block stays empty. -/
example : ∃ f t o1 o2, run f (new 48000 (⟨1, 1, fun _ _ => 7⟩ : Grid Int) ⟨[0, 1]⟩)
    [exampleBlock [.startNow 0] (2 ^ 32), exampleBlock [.startNow 1] (2 * 2 ^ 32),
      exampleBlock [.startNow 2] (3 * 2 ^ 32)] = .ok (t, [o1, o2, ⟨1, 8, fun _ _ => 0⟩]) :=
  C40_start_is_heard_violated 48000 (by decide) (by decide) ⟨1, 1, fun _ _ => 7⟩ ⟨[0, 1]⟩ (by decide)
    (by decide) (exampleBlock [.startNow 0] (2 ^ 32)) (exampleBlock [.startNow 1] (2 * 2 ^ 32))
    (exampleBlock [.startNow 2] (3 * 2 ^ 32)) rfl rfl rfl (by simp [exampleBlock])
    (by simp [exampleBlock])

/-! ## C42: processing returns -/

/-- C42, the part that holds: when every loop that is set ends after it starts, every history of a sampler
returns.  What is missing: a loop that does not end after it starts, see
`C42_processing_returns_violated`. -/
theorem C42_processing_returns_partial (sr : Nat) (h0 : 0 < sr) (h1 : sr < 2 ^ 32) (buffer : Grid S)
    (fade : Fade S) (hL : 0 < fade.values.length) (bs : List (SamplerBlock S)) (hb : BlocksOk sr bs)
    (he : ∀ b ∈ bs, ∀ e ∈ b.sent, ∀ loopStart loopEnd, e.eventType = .enableLoop loopStart loopEnd →
      loopStart < loopEnd) :
    ∃ fuel s outs, run fuel (new sr buffer fade) bs = .ok (s, outs) := by
  obtain ⟨f, t, outs, h, _⟩ := good_run bs (new_good sr h0 h1 buffer fade hL) hb he
  exact ⟨f, t, outs, h⟩

example : ∃ fuel s outs, run fuel (new 48000 exampleBuffer exampleFade)
    [exampleBlock [.startNow 0, .enableLoop 1 0 1] 0, exampleBlock [.stopAt 2 5] 0] = .ok (s, outs) :=
  C42_processing_returns_partial 48000 (by decide) (by decide) _ _ (by decide) _
    (by simp [BlocksOk, exampleBlock])
    (by
      intro b hb e he a c h
      simp only [exampleBlock, List.mem_cons, List.not_mem_nil, or_false] at hb
      rcases hb with rfl | rfl
      · simp only [List.mem_cons, List.not_mem_nil, or_false] at he
        rcases he with rfl | rfl
        · cases h
        · cases h; decide
      · simp only [List.mem_cons, List.not_mem_nil, or_false] at he
        subst he
        cases h)

/-- C42: a loop whose end is not after its start, enabled when the play position is at or past its end,
keeps the audio thread from ever returning from the block. -/
theorem C42_processing_hangs (s : Sampler S) (hs : s.Ok) (hp : s.events.pending = [])
    (hch : s.events.channel = []) (a b : Int) (hab : b ≤ a)
    (hpos : b - s.startPosition + (b - a) * s.completedLoops ≤ s.position) (n : Nat) (out : Grid S)
    (hn : 0 < out.frames) (start : Int) (h0 : 0 ≤ start) (fuel : Nat) :
    (s.sendAll [.enableLoop n a b]).processAudio fuel out start = .error .diverge := by
  rw [single_event hs hp hch _ fuel out start hn (by exact h0)]
  have e : s.processEvent (.enableLoop n a b) start = { s with loopPoints := some (a, b) } := rfl
  have hr : s.events.receiveEvents = s.events := by
    unfold receiveEvents
    rw [hch]
  rw [e, processAudio_eq]
  simp only [hr, hp]
  have hh := processSample_hangs ⟨0, out.frames⟩ fuel 0 { s with loopPoints := some (a, b) } out a b hs.rate
    rfl hab (by
      rw [nextLoopPosition_some (s := { s with loopPoints := some (a, b) }) hs.rate rfl]
      exact hpos) hn
  rw [blockLoop_nil _ _ _ _ hn, hh]
  rfl

/-- C42: it happens to a sampler that is not even playing: with loop points `(a, 0)` the first block
never returns. -/
theorem C42_processing_returns_violated (sr : Nat) (h0 : 0 < sr) (h1 : sr < 2 ^ 32) (buffer : Grid S)
    (fade : Fade S) (hL : 0 < fade.values.length) (a : Int) (ha : 0 ≤ a) (b : SamplerBlock S)
    (hsent : b.sent = [.enableLoop 0 a 0]) (hn : 0 < b.out.frames) (ht : 0 ≤ b.start) (fuel : Nat) :
    run fuel (new sr buffer fade) [b] = .error .diverge := by
  have h := C42_processing_hangs (new sr buffer fade) (new_good sr h0 h1 buffer fade hL).ok rfl rfl a 0 ha
    (by simp [new, Timestamp.zero]) 0 b.out hn b.start ht fuel
  rw [run, hsent]
  simp only [bind]
  rw [h]
  rfl

example (fuel : Nat) : run fuel (new 48000 exampleBuffer exampleFade)
    [exampleBlock [.enableLoop 0 0 0] 0] = .error .diverge :=
  C42_processing_returns_violated 48000 (by decide) (by decide) _ _ (by decide) 0 (by decide) _ rfl
    (by decide) (by decide) fuel

/-! ## C64: a sample is played once, from beginning to end -/

/-- C64: an idle sampler told to start plays its sample exactly once from its first frame to its last,
starting with the first frame of the block, sample by sample and however the stream is divided into
blocks. -/
theorem C64_plays_once (s : Sampler S) (hs : s.Good) (hl : s.loopPoints = none)
    (hp : s.events.pending = []) (hne : s.voices ≠ []) (hidle : ∀ v ∈ s.voices, v.phase = .stopped)
    (n : Nat) (b : SamplerBlock S) (bs : List (SamplerBlock S)) (hsent : b.sent = [.startNow n])
    (h0 : 0 ≤ b.start) (hn : 0 < b.out.frames) (hbs : ∀ c ∈ bs, c.sent = [] ∧ 0 < c.out.frames)
    (hlen : (bs.length + 3) * s.sampleRate ≤ 2 ^ 32) :
    ∃ f t, run f s (b :: bs) = .ok (t, playedFrom s.buffer 0 (b :: bs)) := by
  have hact : s.activeVoice = none := by
    cases h : s.activeVoice with
    | none => rfl
    | some i =>
      obtain ⟨v, h1, h2⟩ := hs.active i h
      have h3 := hidle v (List.mem_of_getElem? h1)
      rcases h2 with h2 | ⟨k, h2⟩ <;> (rw [h3] at h2; cases h2)
  have hmap : s.voices.map Voice.stop = s.voices := by
    rw [List.map_congr_left (g := id)]
    · simp
    · intro v hv
      have := hidle v hv
      obtain ⟨q, ph⟩ := v
      simp only at this
      subst this
      rfl
  obtain ⟨v0, vs, hv⟩ : ∃ v0 vs, s.voices = v0 :: vs := by
    cases h : s.voices with
    | nil => exact absurd h hne
    | cons v0 vs => exact ⟨v0, vs, rfl⟩
  have hvs : (s.start 0 0).voices = ⟨0, .playing⟩ :: vs := by
    rw [(start_free (s := s) (by simp [activePosition, hact])).1]
    unfold takeVoice stop
    simp only [hmap]
    have : s.voices.findIdx? Voice.isStopped = some 0 := by
      have h1 := hidle v0 (by rw [hv]; exact List.mem_cons_self)
      rw [hv, List.findIdx?_cons, Voice.isStopped, h1]
      rfl
    rw [this, hv]
    rfl
  have hst : ∀ v ∈ vs, v.phase = .stopped := fun v h => hidle v (by rw [hv]; exact List.mem_cons_of_mem _ h)
  obtain ⟨f, t, r, k, v1, _, x, l, p, c, nr⟩ := start_block hs.ok hl
    (le_trans (Nat.mul_le_mul_right _ (by omega)) hlen) hp hs.channel n b.out b.start hn h0
  rw [hvs] at v1
  have hbuf := (start_same s 0 0).2.1
  have hm := mixed_once (s := s.start 0 0) hvs hst 0 (by simp) b
  rw [hbuf, Nat.sub_zero] at hm
  have ht : t.Once b.out.frames 1 := by
    refine ⟨k, l, p, c, ?_, vs.map (fun v => v.after s.fade (min s.buffer.frames b.out.frames)), ?_,
      stopped_after s.fade hst _⟩
    · rw [x.buffer, Nat.min_comm]; exact nr
    · rw [v1, x.buffer, Nat.min_comm b.out.frames, List.map_cons]
      simp only [Voice.after, Nat.zero_add]
  obtain ⟨g, u, hu⟩ := once_run bs ht hbs (by
    rw [x.sampleRate]; exact le_trans (Nat.mul_le_mul_right _ (by omega)) hlen)
  rw [← hsent] at r
  refine ⟨f + g, u, ?_⟩
  have := run_cons r hu
  simp only [playedFrom, List.cons.injEq, and_true] at hm
  rw [this, x.buffer, hm]
  simp only [playedFrom, Nat.zero_add]

/-- The example: a new sampler, and two blocks of which the first holds the whole sample. -/
example : ∃ f t, run f (new 48000 exampleBuffer exampleFade)
    [exampleBlock [.startNow 0] 5, exampleBlock [] 700000] =
      .ok (t, playedFrom exampleBuffer 0 [exampleBlock [.startNow 0] 5, exampleBlock [] 700000]) :=
  C64_plays_once _ example_good rfl rfl (by simp [new]) (by simp [new, Voice.default]) 0
    (exampleBlock [.startNow 0] 5) [exampleBlock [] 700000] rfl (by simp [exampleBlock])
    (by simp [exampleBlock]) (by simp [exampleBlock]) (by simp [new])

/-! ## C62: cancelling the loop -/

/-- C62, the part that holds: when the loop is cancelled before it has wrapped around, the rest of the
sample is played.  The sampler has played `p` frames since a start at the beginning of the sample, the loop
points are whatever they are.  What is missing: a loop that has wrapped around, see
`C62_cancel_loop_violated`. -/
theorem C62_cancel_loop_partial (s : Sampler S) (p D : Nat)
    (hs : ({ s with loopPoints := none } : Sampler S).Once p D) (n : Nat) (b : SamplerBlock S)
    (bs : List (SamplerBlock S)) (hsent : b.sent = [.cancelLoop n]) (h0 : 0 ≤ b.start)
    (hn : 0 < b.out.frames) (hbs : ∀ c ∈ bs, c.sent = [] ∧ 0 < c.out.frames)
    (hlen : (D + bs.length + 3) * s.sampleRate ≤ 2 ^ 32) :
    ∃ f t, run f s (b :: bs) = .ok (t, playedFrom s.buffer p (b :: bs)) := by
  have hok : s.Ok := ⟨hs.ok.fade, hs.ok.rate, hs.ok.rate', hs.ok.voices⟩
  obtain ⟨f, t, h⟩ := once_run (⟨[], b.start, b.out⟩ :: bs) hs
    (by
      intro c hc
      rcases List.mem_cons.mp hc with rfl | hc
      · exact ⟨rfl, hn⟩
      · exact hbs c hc)
    (by simp only [List.length_cons]; exact le_trans (Nat.mul_le_mul_right _ (by omega)) hlen)
  refine ⟨f, t, ?_⟩
  rw [run] at h ⊢
  simp only [bind] at h ⊢
  rw [hsent, single_event hok hs.pending hs.channel _ f b.out b.start hn (by exact h0)]
  exact h

/-- The example: two frames of the sample have been played, with a loop over its last frames. -/
example : ∃ f t, run f ({ new 32768 exampleBuffer exampleFade with
      voices := [⟨2, .playing⟩, Voice.default], activeVoice := some 0, position := 2 * 131072
      loopPoints := some (393216, 524288) } : Sampler Int) [exampleBlock [.cancelLoop 2] 262144] =
    .ok (t, playedFrom exampleBuffer 2 [exampleBlock [.cancelLoop 2] 262144]) :=
  C62_cancel_loop_partial _ 2 0
    ⟨⟨by simp [new, exampleFade], by simp [new], by simp [new], by simp [Voice.Ok, Voice.default]⟩, rfl, rfl,
      rfl, by simp [Near, new, exampleBuffer]; norm_num, [Voice.default], rfl, by simp [Voice.default]⟩
    2 (exampleBlock [.cancelLoop 2] 262144) [] rfl (by simp [exampleBlock]) (by simp [exampleBlock]) (by simp)
    (by simp [new])

/-- C62: when the sampler has played for at least as long as its sample is, in a loop, cancelling the loop
ends playback at once: nothing more is heard, whatever frame of the sample was being played. -/
theorem C62_cancel_loop_cuts_off (s : Sampler S) (hs : s.Ok) (hp : s.events.pending = [])
    (hch : s.events.channel = [])
    (hpos : Timestamp.fromSamples (s.buffer.frames : ℚ) s.sampleRate ≤ s.position) (n : Nat)
    (b : SamplerBlock S) (bs : List (SamplerBlock S)) (hb : BlocksOk s.sampleRate (b :: bs))
    (hsent : b.sent = [.cancelLoop n]) (h0 : 0 ≤ b.start) (hbs : ∀ c ∈ bs, c.sent = []) :
    ∃ f t outs, run f s (b :: bs) = .ok (t, outs) ∧ SilentFrom 0 (b :: bs) outs := by
  have hn := (hb b List.mem_cons_self).1
  obtain ⟨x, hx⟩ : ∃ x : Sampler S, x = { s.sendAll b.sent with
        events := (s.sendAll b.sent).events.receiveEvents } := ⟨_, rfl⟩
  have hxo : x.Ok := by rw [hx, sendAll_eq]; exact ⟨hs.fade, hs.rate, hs.rate', hs.voices⟩
  have hxf : SameFixed s x := by rw [hx, sendAll_eq]; exact ⟨rfl, rfl, rfl⟩
  have hxp : x.position = s.position := by rw [hx, sendAll_eq]
  have hpend : (s.sendAll b.sent).events.receiveEvents.pending = [.cancelLoop n] := by
    rw [sendAll_eq, hsent]
    have h1 : ([SamplerEvent.cancelLoop n]).foldl push [] = [SamplerEvent.cancelLoop n] := rfl
    simp only [hch, List.nil_append, receiveEvents, hp, h1, List.mergeSort_singleton]
  have hq : (x.processEvent (.cancelLoop n) b.start).Quiet 0 := by
    have h1 : x.processEvent (.cancelLoop n) b.start = { x with loopPoints := none } := rfl
    rw [h1]
    refine ⟨⟨hxo.fade, hxo.rate, hxo.rate', hxo.voices⟩, rfl, Or.inl ⟨rfl, ?_⟩⟩
    have h2 : ({ x with loopPoints := none } : Sampler S).nextLoopPosition - x.position ≤ 0 := by
      rw [nextLoopPosition_none rfl, hxp]
      simp only
      rw [hxf.buffer, hxf.sampleRate]
      omega
    apply roundUsize_eq_zero
    have h3 := asSamples_mono x.sampleRate h2
    have h4 : Timestamp.asSamples 0 x.sampleRate = 0 := by simp [Timestamp.asSamples, Timestamp.asSeconds]
    rw [h4] at h3
    exact lt_of_le_of_lt h3 (by norm_num)
  refine quiet_from hq (hxf.trans (processEvent_fixed x _ _)) (rest := []) ?_ List.Pairwise.nil
    (by simp) hb (fun c hc e he => by rw [hbs c hc] at he; cases he)
  intro f
  rw [hpend, ← hx, blockLoop_first hxo.rate hxo.rate' hn (by exact h0) f]

/-- C62: "clear the loop points and finish when it reaches the end of the sample" does not happen once the
loop has been played twice.  A sampler is started with a loop over the first `m` frames of a sample that is
longer than the loop, but not longer than twice the loop.  After two rounds the voice stands at frame `m`,
inside the sample.  The loop is cancelled, and nothing more is heard: the rest of the sample is
missing. -/
theorem C62_cancel_loop_violated (buffer : Grid S) (fade : Fade S) (hL : 0 < fade.values.length) (m : Nat)
    (hm : 0 < m) (h1 : m < buffer.frames) (h2 : buffer.frames ≤ 2 * m) (b1 b2 : SamplerBlock S)
    (hs1 : b1.sent = [.startNow 0, .enableLoop 1 0 ((m : Int) * 131072)])
    (hs2 : b2.sent = [.cancelLoop 2]) (ht1 : 0 ≤ b1.start) (ht2 : 0 ≤ b2.start)
    (hf1 : b1.out.frames = 2 * m) (hf2 : 0 < b2.out.frames ∧ b2.out.frames ≤ 2 ^ 18) :
    ∃ f t o1, run f (new 32768 buffer fade) [b1] = .ok (t, [o1]) ∧
      t.activeVoice = some 1 ∧ t.voices[1]? = some ⟨m, .playing⟩ ∧
      ∃ g u outs, run g t [b2] = .ok (u, outs) ∧ SilentFrom 0 [b2] outs := by
  obtain ⟨f, t, o1, e1, e2, e3, e4, e5, e6, e7⟩ := looping_twice buffer fade hL m hm b1.out hf1
  have r1 := looping_block buffer fade hL m b1 hs1 ht1 (by omega) f t o1 e1
  refine ⟨f + 0, { t with events := ⟨[], [], 32768⟩ }, o1, run_cons r1 rfl, e6, e7, ?_⟩
  refine C62_cancel_loop_cuts_off { t with events := ⟨[], [], 32768⟩ } ⟨e2.fade, e2.rate, e2.rate', e2.voices⟩
    rfl rfl ?_ 2 b2 [] ?_ hs2 ht2 (by simp)
  · simp only
    rw [e3, e4, e5, fromSamples_exact]
    push_cast
    have : (buffer.frames : Int) ≤ 2 * m := by exact_mod_cast h2
    omega
  · intro b hb
    simp only [List.mem_cons, List.not_mem_nil, or_false] at hb
    subst hb
    simp only
    rw [e4]
    omega

/-- The witness: a sample of three frames with a loop over the first two. -/
example : ∃ f t o1, run f (new 32768 (⟨1, 3, fun _ _ => 7⟩ : Grid Int) ⟨[0]⟩)
      [⟨[.startNow 0, .enableLoop 1 0 (2 * 131072)], 0, ⟨1, 4, fun _ _ => 0⟩⟩] = .ok (t, [o1]) ∧
    t.activeVoice = some 1 ∧ t.voices[1]? = some ⟨2, .playing⟩ ∧
    ∃ g u outs, run g t [exampleBlock [.cancelLoop 2] 524288] = .ok (u, outs) ∧
      SilentFrom 0 [exampleBlock [.cancelLoop 2] 524288] outs :=
  C62_cancel_loop_violated ⟨1, 3, fun _ _ => 7⟩ ⟨[0]⟩ (by decide) 2 (by decide) (by decide) (by decide)
    ⟨_, 0, ⟨1, 4, fun _ _ => 0⟩⟩ (exampleBlock [.cancelLoop 2] 524288) rfl rfl (by decide)
    (by simp [exampleBlock]) rfl (by simp [exampleBlock])

/-! ## C63: stop -/

/-- C63, the part that holds: without a loop, a sampler that is told to stop is silent once the fade-out
has ended and stays so until it is started again.  What is missing: a sampler that loops, see
`C63_stop_violated`. -/
theorem C63_stop_partial (s : Sampler S) (hs : s.Ok) (hl : s.loopPoints = none)
    (hsort : InTimeOrder s.events.pending) (hp : ∀ e ∈ s.events.pending, e.Quieting)
    (hch : s.events.channel = []) (n : Nat) (b : SamplerBlock S) (bs : List (SamplerBlock S))
    (hb : BlocksOk s.sampleRate (b :: bs)) (hsent : b.sent = [.stopNow n]) (h0 : 0 ≤ b.start)
    (he : ∀ c ∈ bs, ∀ e ∈ c.sent, e.Quieting) :
    ∃ f t outs, run f s (b :: bs) = .ok (t, outs) ∧
      SilentFrom s.fade.values.length (b :: bs) outs := by
  have hn := (hb b List.mem_cons_self).1
  obtain ⟨x, hx⟩ : ∃ x : Sampler S, x = { s.sendAll b.sent with
        events := (s.sendAll b.sent).events.receiveEvents } := ⟨_, rfl⟩
  have hxo : x.Ok := by rw [hx, sendAll_eq]; exact ⟨hs.fade, hs.rate, hs.rate', hs.voices⟩
  have hxl : x.loopPoints = none := by rw [hx, sendAll_eq]; exact hl
  have hxf : SameFixed s x := by rw [hx, sendAll_eq]; exact ⟨rfl, rfl, rfl⟩
  have hord : InTimeOrder (s.sendAll b.sent).events.receiveEvents.pending := by
    apply receive_sorted; rw [sendAll_eq]; exact hsort
  have hperm : (s.sendAll b.sent).events.receiveEvents.pending.Perm (s.events.pending ++ [.stopNow n]) := by
    rw [sendAll_eq, hsent]
    have h1 : ([SamplerEvent.stopNow n]).foldl push s.events.pending =
      s.events.pending ++ [SamplerEvent.stopNow n] := rfl
    simp only [hch, List.nil_append, receiveEvents, h1]
    exact List.mergeSort_perm _ _
  obtain ⟨q, hqd⟩ : ∃ q, q = (s.sendAll b.sent).events.receiveEvents.pending := ⟨_, rfl⟩
  rw [← hqd] at hord hperm
  have hmem : SamplerEvent.stopNow n ∈ q := hperm.mem_iff.mpr (by simp)
  have hq : ∀ e ∈ q, e.Quieting := by
    intro e h
    rcases List.mem_append.mp (hperm.mem_iff.mp h) with h | h
    · exact hp e h
    · simp only [List.mem_cons, List.not_mem_nil, or_false] at h
      subst h
      exact Or.inl rfl
  obtain ⟨pre, rest, hsplit⟩ := List.append_of_mem hmem
  rw [hsplit] at hord hq
  have hpre : ∀ d ∈ pre, d.Quieting ∧ d.time ≤ b.start := by
    intro d hd
    refine ⟨hq d (List.mem_append_left _ hd), ?_⟩
    have h1 := (List.pairwise_append.mp hord).2.2 d hd _ List.mem_cons_self
    have h2 : d.time ≤ 0 := by
      have h3 : d.time < 0 ∨ (d.time = 0 ∧ _) := h1
      omega
    omega
  obtain ⟨s', g1, g2, g3⟩ := blockLoop_stop (e := .stopNow n) rfl hn (by exact h0) rest pre hxo hxl hpre
  rw [hxf.fade] at g1
  refine quiet_from g1 (hxf.trans g2) (rest := rest) ?_ ?_ ?_ hb he
  · intro f
    rw [← hqd, hsplit, ← hx]
    exact g3 f
  · exact (List.pairwise_cons.mp (List.pairwise_append.mp hord).2.1).2
  · exact fun e h => hq e (List.mem_append_right _ (List.mem_cons_of_mem _ h))

/-- The example: a sampler in the middle of its sample, with a stop scheduled for later. -/
example : ∃ f t outs, run f ({ new 48000 exampleBuffer exampleFade with
      voices := [⟨2, .playing⟩, Voice.default], activeVoice := some 0, position := 178957
      events := ⟨[.stopAt 0 900000], [], 48000⟩ } : Sampler Int)
      [exampleBlock [.stopNow 1] 178957, exampleBlock [] 894785] = .ok (t, outs) ∧
    SilentFrom 3 [exampleBlock [.stopNow 1] 178957, exampleBlock [] 894785] outs :=
  C63_stop_partial _ ⟨by simp [new, exampleFade], by simp [new], by simp [new],
      by simp [Voice.Ok, Voice.default]⟩ rfl (by simp [InTimeOrder])
    (by simp [SamplerEvent.Quieting, SamplerEvent.stopAt]) rfl 1 (exampleBlock [.stopNow 1] 178957)
    [exampleBlock [] 894785] (by simp [BlocksOk, exampleBlock, new]) rfl (by simp [exampleBlock])
    (by simp [exampleBlock])

/-- C63: a sampler that loops starts to play again by itself after it has been stopped.  It is started with
a loop over the first `m` frames of its sample, where the loop is longer than the fade, and stopped one
frame later.  `m` frames after the stop, when the fade-out is over, the second frame of the sample is
heard again. -/
theorem C63_stop_violated (buffer : Grid S) (fade : Fade S) (hL : 0 < fade.values.length) (m : Nat)
    (hm : fade.values.length < m) (hN : 2 ≤ buffer.frames) (hC : 0 < buffer.channels)
    (b1 b2 : SamplerBlock S)
    (hs1 : b1.sent = [.startNow 0, .enableLoop 1 0 ((m : Int) * 131072)])
    (hs2 : b2.sent = [.stopNow 2]) (ht1 : 0 ≤ b1.start) (ht2 : 0 ≤ b2.start)
    (hf1 : b1.out.frames = 1) (hf2 : b2.out.frames = m + 1) (hc2 : 0 < b2.out.channels) :
    ∃ f t o1 o2, run f (new 32768 buffer fade) [b1, b2] = .ok (t, [o1, o2]) ∧
      o2.val 0 m = b2.out.val 0 m + buffer.val 0 1 := by
  -- the first block
  obtain ⟨a, ha⟩ : ∃ a : Sampler S, a = looping buffer fade m := ⟨_, rfl⟩
  have oka : a.Ok := by rw [ha]; exact looping_ok buffer fade hL m
  have ra : a.sampleRate = 32768 := by rw [ha]; rfl
  have pa : a.position = (0 : Nat) * 131072 := by rw [ha]; rfl
  have la : a.loopPoints = some (0, (m : Int) * 131072) := by rw [ha]; rfl
  have na : a.nextLoopPosition = (m : Nat) * 131072 := by
    rw [nextLoopPosition_some oka.rate la, ha]
    simp [looping, new, Timestamp.zero]
  have h1 := processSample_exact oka ra pa na (by omega) (w := ⟨0, b1.out.frames⟩) (out := b1.out) (fp := 0)
    (by simp only; omega) (by simp only; omega) 0
  simp only [Nat.sub_zero, Nat.zero_add, show min m b1.out.frames = 1 by omega] at h1
  have h1' : processSample ⟨0, b1.out.frames⟩ 0 1 (a.advanced 1) (a.mixed b1.out ⟨0, 1⟩) =
    .ok (a.advanced 1, a.mixed b1.out ⟨0, 1⟩) := processSample_done (by simp only; omega)
  rw [h1', ha] at h1
  have r1 := looping_block buffer fade hL m b1 hs1 ht1 (by omega) _ _ _ h1
  rw [← ha] at r1
  obtain ⟨o1, ho1⟩ : ∃ o1, o1 = a.mixed b1.out ⟨0, 1⟩ := ⟨_, rfl⟩
  rw [← ho1] at r1
  obtain ⟨b, hb⟩ : ∃ b : Sampler S, b = { a.advanced 1 with events := ⟨[], [], 32768⟩ } := ⟨_, rfl⟩
  rw [← hb] at r1
  have okb : b.Ok := by
    have := advanced_ok oka 1
    rw [hb]; exact ⟨this.fade, this.rate, this.rate', this.voices⟩
  -- the second block: the stop
  obtain ⟨c, hc⟩ : ∃ c : Sampler S, c = b.stop := ⟨_, rfl⟩
  have okc : c.Ok := by rw [hc]; exact stop_ok okb
  have vc : c.voices = [⟨1, .fadingOut 0⟩, Voice.default] := by
    rw [hc, hb, ha]
    simp [stop, advanced, looping, Voice.after, Voice.default, Voice.stop]
  have ac : c.activeVoice = none := by rw [hc]; rfl
  have lc : c.loopPoints = some (0, (m : Int) * 131072) := by rw [hc, hb]; exact la
  have rc : c.sampleRate = 32768 := by rw [hc, hb]; exact ra
  have pc : c.position = (1 : Nat) * 131072 := by
    rw [hc, hb]
    have := advanced_position ra pa 1
    rw [Nat.zero_add] at this
    exact this
  have nc : c.nextLoopPosition = (m : Nat) * 131072 := by
    rw [nextLoopPosition_some okc.rate lc, hc, hb, ha]
    simp [stop, advanced, looping, new, Timestamp.zero]
  have fc : c.fade = fade := by rw [hc, hb, ha]; rfl
  have bc : c.buffer = buffer := by rw [hc, hb, ha]; rfl
  have h2 := processSample_exact okc rc pc nc (by omega) (w := ⟨0, b2.out.frames⟩) (out := b2.out) (fp := 0)
    (by simp only; omega) (by simp only; omega) 2
  simp only [Nat.sub_zero, Nat.zero_add, show min (m - 1) b2.out.frames = m - 1 by omega] at h2
  obtain ⟨d, hd⟩ : ∃ d : Sampler S, d = c.advanced (m - 1) := ⟨_, rfl⟩
  have okd : d.Ok := by rw [hd]; exact advanced_ok okc _
  have sd := advanced_same c (m - 1)
  rw [← hd] at sd
  have ld := sd.loopPoints.trans lc
  have rd := sd.sampleRate.trans rc
  have pd : d.position = (m : Nat) * 131072 := by
    have := advanced_position rc pc (m - 1)
    rw [← hd, show 1 + (m - 1) = m by omega] at this
    exact this
  have nd : d.nextLoopPosition = (m : Nat) * 131072 := by
    have e : d.completedLoops = c.completedLoops := by rw [hd]; rfl
    rw [nextLoopPosition_some okc.rate lc] at nc
    rw [nextLoopPosition_some okd.rate ld, sd.startPosition, e]
    exact nc
  have vd : d.voices = [⟨1 + (fade.values.length - 0), .stopped⟩, Voice.default] := by
    rw [hd]
    simp only [advanced, vc, fc, List.map_cons, List.map_nil]
    rw [Voice.after_out_ge fade (by omega)]
    rfl
  have ad : d.activeVoice = none := by rw [hd]; exact ac
  obtain ⟨p1, hp1⟩ : ∃ p1, p1 = c.mixed b2.out ⟨0, m - 1⟩ := ⟨_, rfl⟩
  have fp1 : p1.frames = m + 1 := by rw [hp1, ← hf2]; rfl
  have cp1 : p1.channels = b2.out.channels := by rw [hp1]; rfl
  have vp1 : p1.val 0 m = b2.out.val 0 m := by
    rw [hp1, mixed, Grid.changed_mk, if_neg (by omega)]
  -- the end of the loop
  have h3 := processSample_wrap okd rd pd nd (w := ⟨0, b2.out.frames⟩) (out := p1) (fp := m - 1)
    (by simp only; omega) (by rw [ld]; rfl) 1
  obtain ⟨e, hee⟩ : ∃ e : Sampler S, e = d.finishSample := ⟨_, rfl⟩
  have oke : e.Ok := by rw [hee]; exact finishSample_ok okd
  have se := finishSample_same d
  rw [← hee] at se
  have pe : e.position = (m : Nat) * 131072 := by rw [hee, finishSample_position]; exact pd
  have re := se.sampleRate.trans rd
  have ne : e.nextLoopPosition = (2 * m : Nat) * 131072 := by
    rw [hee, finishSample_next okd.rate ld, nd]
    push_cast
    ring
  have ve : e.voices = [⟨0, .playing⟩, Voice.default] := by
    have e0 : d.finishSample = d.loopBack 0 := by unfold finishSample; rw [ld]
    rw [hee, e0]
    have e2 : roundUsize (Timestamp.asSamples 0 d.sampleRate) = 0 :=
      roundUsize_eq_zero (by norm_num [Timestamp.asSamples, Timestamp.asSeconds])
    simp only [loopBack, assignVoice]
    rw [e2, if_neg (by simp [activePosition, ad])]
    unfold takeVoice stop
    simp only [vd, List.map_cons, List.map_nil, Voice.stop, Voice.default]
    rfl
  -- the sample is played again
  have h4 := processSample_exact oke re pe ne (by omega) (w := ⟨0, b2.out.frames⟩) (out := p1) (fp := m - 1)
    (by simp only; omega) (by simp only; omega) 0
  simp only [show min (2 * m - m) (b2.out.frames - (m - 1)) = 2 by omega] at h4
  have h4' : processSample ⟨0, b2.out.frames⟩ 0 (m - 1 + 2) (e.advanced 2) (e.mixed p1 ⟨0 + (m - 1), 2⟩) =
    .ok (e.advanced 2, e.mixed p1 ⟨0 + (m - 1), 2⟩) := processSample_done (by simp only; omega)
  rw [h4'] at h4
  rw [← hd, ← hp1, h3, ← hee, h4] at h2
  have r2 : (b.sendAll b2.sent).processAudio 3 b2.out b2.start =
      .ok ({ e.advanced 2 with events := ⟨[], [], 32768⟩ }, e.mixed p1 ⟨0 + (m - 1), 2⟩) := by
    have hbe : b.events = ⟨[], [], 32768⟩ := by rw [hb]
    rw [hs2, single_event okb (by rw [hbe]) (by rw [hbe]) _ 3 b2.out b2.start (by omega) (by exact ht2)]
    have e1 : b.processEvent (.stopNow 2) b2.start = c := by rw [hc]; rfl
    have e2 : c.events.receiveEvents = ⟨[], [], 32768⟩ := by rw [hc, hb]; rfl
    have e3 : ({ c with events := ⟨[], [], 32768⟩ } : Sampler S) = c := by rw [hc, hb]; rfl
    rw [e1, processAudio_eq, e2, e3]
    simp only
    rw [blockLoop_nil _ _ _ _ (by omega), h2]
    rfl
  refine ⟨_, _, _, _, run_cons r1 (run_cons r2 (show run 0 _ [] = .ok (_, []) from rfl)), ?_⟩
  rw [mixed, Grid.changed_mk, if_pos (by omega), ve, vp1, se.buffer, sd.buffer, bc]
  have e5 : ∀ o, mixVoices e.fade buffer [⟨0, .playing⟩, Voice.default] 0 1 o =
      (Heard.plain (0 + 1)).mix buffer 0 o := fun o => rfl
  rw [show m - (0 + (m - 1)) = 1 by omega, e5, Heard.mix, if_pos ⟨hC, by omega⟩]

/-- The witness: a fade of one frame, a loop of two frames, stopped after the first frame.  Two frames
later the sampler is heard again. -/
example : ∃ f t o1 o2, run f (new 32768 exampleBuffer (⟨[0]⟩ : Fade Int))
      [⟨[.startNow 0, .enableLoop 1 0 (2 * 131072)], 0, ⟨1, 1, fun _ _ => 0⟩⟩,
        ⟨[.stopNow 2], 131072, ⟨1, 3, fun _ _ => 0⟩⟩] = .ok (t, [o1, o2]) ∧ o2.val 0 2 = 0 + 20 :=
  C63_stop_violated exampleBuffer ⟨[0]⟩ (by decide) 2 (by decide) (by decide) (by decide)
    ⟨_, 0, ⟨1, 1, fun _ _ => 0⟩⟩ ⟨_, 131072, ⟨1, 3, fun _ _ => 0⟩⟩ rfl rfl (by decide) (by decide) rfl rfl
    (by decide)

end Sampler
end Rawdio
