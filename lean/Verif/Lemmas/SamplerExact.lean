import Verif.Lemmas.SamplerPlay

/-! # Samplers at a sample rate of 32768 Hz, where sample times are exact -/

namespace Rawdio
namespace Sampler

open TimedEvent EventProcessor

variable {S : Type}

theorem fromSamples_exact (n : Nat) : Timestamp.fromSamples (n : ℚ) 32768 = n * 131072 := by
  have e : ((n : ℚ) / ((32768 : Nat) : ℚ)) * Timestamp.one = (((n * 131072 : Nat) : Int) : ℚ) := by
    simp only [Timestamp.one]
    push_cast
    ring
  unfold Timestamp.fromSamples Timestamp.fromSeconds
  rw [e, Timestamp.roundHalfEven_int]
  push_cast
  ring

theorem renderFrameCount_exact {s : Sampler S} (hs : s.Ok) (hr : s.sampleRate = 32768) {p e : Nat}
    (hp : s.position = p * 131072) (he : s.nextLoopPosition = e * 131072) (hpe : p ≤ e) (r : Nat) :
    s.renderFrameCount r = min (e - p) r := by
  rcases lt_or_ge (s.position + Timestamp.fromSamples (r : ℚ) s.sampleRate) s.nextLoopPosition with h1 | h1
  · rw [renderFrameCount_all hs r h1]
    rw [hp, he, hr, fromSamples_exact] at h1
    omega
  · rw [renderFrameCount_end r h1, hp, he, hr]
    congr 1
    apply roundUsize_near
    rw [asSamples_eq, Nat.cast_sub hpe]
    have : (((e : Int) * 131072 - (p : Int) * 131072 : Int) : ℚ) * ((32768 : Nat) : ℚ) / 2 ^ 32 = e - p := by
      push_cast; ring
    rw [this]
    norm_num

theorem advanced_position {s : Sampler S} (hr : s.sampleRate = 32768) {p : Nat}
    (hp : s.position = p * 131072) (n : Nat) : (s.advanced n).position = (p + n : Nat) * 131072 := by
  unfold advanced Timestamp.incrementedBySamples
  simp only
  rw [hr, hp, fromSamples_exact]
  push_cast
  ring

section Render

variable [Add S] [Mul S] [One S]

/-- Frames before the end of the loop. -/
theorem processSample_exact {s : Sampler S} (hs : s.Ok) (hr : s.sampleRate = 32768) {p e : Nat}
    (hp : s.position = p * 131072) (he : s.nextLoopPosition = e * 131072) (hpe : p < e) {w : Window}
    {out : Grid S} (hw : w.offset + w.count ≤ out.frames) {fp : Nat} (hfp : fp < w.count) (fuel : Nat) :
    processSample w (fuel + 1) fp s out =
      processSample w fuel (fp + min (e - p) (w.count - fp)) (s.advanced (min (e - p) (w.count - fp)))
        (s.mixed out ⟨w.offset + fp, min (e - p) (w.count - fp)⟩) := by
  have h := renderFrameCount_exact hs hr hp he (le_of_lt hpe) (w.count - fp)
  rw [processSample_step hs hw hfp (by rw [h]; omega), h]

/-- The end of the loop. -/
theorem processSample_wrap {s : Sampler S} (hs : s.Ok) (hr : s.sampleRate = 32768) {p : Nat}
    (hp : s.position = p * 131072) (he : s.nextLoopPosition = p * 131072) {w : Window} {out : Grid S}
    {fp : Nat} (hfp : fp < w.count) (hl : s.loopPoints.isSome) (fuel : Nat) :
    processSample w (fuel + 1) fp s out = processSample w fuel fp s.finishSample out := by
  refine processSample_loop hfp ?_ hl
  rw [renderFrameCount_exact hs hr hp he (le_refl _)]
  omega

omit [Add S] [Mul S] [One S] in
theorem push_clears {E : Type} [TimedEvent E] (c : E) (hc : clearsQueue c = true) (r1 r2 p : List E) :
    (r1 ++ c :: r2).foldl push p = r2.foldl push [c] := by
  rw [List.foldl_append, List.foldl_cons]
  congr 1
  unfold push
  rw [if_pos hc]

omit [Add S] [Mul S] [One S] in
theorem takeVoice_sounding (s : Sampler S) (p : Nat) (h : ∃ v ∈ s.voices, v.phase = .stopped) :
    ∃ v ∈ (s.takeVoice p).voices, v.Sounding ∧ v.position = p := by
  obtain ⟨v, hv, hst⟩ := h
  have hvs : v.stop = v := by
    obtain ⟨q, ph⟩ := v
    simp only at hst
    subst hst
    rfl
  have hm : v ∈ s.stop.voices := by
    simp only [stop, List.mem_map]
    exact ⟨v, hv, hvs⟩
  unfold takeVoice
  simp only
  cases hf : s.stop.voices.findIdx? Voice.isStopped with
  | none =>
    rw [List.findIdx?_eq_none_iff] at hf
    have := hf v hm
    rw [Voice.isStopped, hst] at this
    cases this
  | some i =>
    rw [List.findIdx?_eq_some_iff_getElem] at hf
    obtain ⟨hi, _⟩ := hf
    exact ⟨_, List.mem_set hi _, startFromPosition_sounding p, rfl⟩

omit [Add S] [Mul S] [One S] in
theorem start_sounding {s : Sampler S} (ha : s.ActiveOk) (p d : Int)
    (h : ∃ v ∈ s.voices, v.phase = .stopped) :
    ∃ v ∈ (s.start p d).voices, v.Sounding ∧
      v.position = roundUsize (Timestamp.asSamples (p + d) s.sampleRate) := by
  have e : (s.start p d).voices = (s.assignVoice (p + d)).voices := rfl
  rw [e]
  unfold assignVoice
  simp only
  split
  · rename_i hp
    unfold activePosition at hp
    cases hv : s.activeVoice with
    | none => rw [hv] at hp; cases hp
    | some i =>
      obtain ⟨v, h1, h2⟩ := ha i hv
      rw [hv] at hp
      simp only [Option.bind_some, h1, Option.map_some, Option.some.injEq] at hp
      exact ⟨v, List.mem_of_getElem? h1, h2, hp⟩
  · exact takeVoice_sounding s _ h

omit [Mul S] [One S] in
theorem voice_past_end [Mul S] [One S] (fade : Fade S) (src : Grid S) {vs : List Voice}
    (h : ∀ v ∈ vs, src.frames ≤ v.position) (c i : Nat) (o : S) : mixVoices fade src vs c i o = o := by
  induction vs generalizing o with
  | nil => rfl
  | cons v vs ih =>
    have hv := h v List.mem_cons_self
    have e : mixVoices fade src (v :: vs) c i o =
      mixVoices fade src vs c i ((v.heard fade i).mix src c o) := rfl
    rw [e, ih (fun u hu => h u (List.mem_cons_of_mem _ hu))]
    unfold Voice.heard
    split
    · rfl
    · exact if_neg (by omega)
    · split <;> exact if_neg (by omega)
    · split
      · exact if_neg (by omega)
      · rfl

omit [Mul S] in
theorem mixed_id [Mul S] {s : Sampler S} (h : ∀ v ∈ s.voices, s.buffer.frames ≤ v.position)
    (out : Grid S) (w : Window) : s.mixed out w = out := by
  refine Grid.ext' (g := s.mixed out w) (h := out) rfl rfl fun c f => ?_
  rw [mixed, Grid.changed_val]
  split
  · exact voice_past_end _ _ h _ _ _
  · rfl

omit [Mul S] [One S] [Add S] in
theorem round_zero (sr : Nat) : roundUsize (Timestamp.asSamples (0 + 0) sr) = 0 :=
  roundUsize_eq_zero (by norm_num [Timestamp.asSamples, Timestamp.asSeconds])

omit [Mul S] [One S] [Add S] in
theorem start_free {s : Sampler S} (h : s.activePosition ≠ some 0) :
    (s.start 0 0).voices = (s.takeVoice 0).voices ∧
      (s.start 0 0).activeVoice = (s.takeVoice 0).activeVoice := by
  unfold Sampler.start assignVoice
  simp only
  rw [round_zero, if_neg h]
  exact ⟨rfl, rfl⟩

/-- A sampler at 32768 Hz that has just been started at the beginning of its sample and told to loop over
its first `m` frames. -/
def looping (buffer : Grid S) (fade : Fade S) (m : Nat) : Sampler S :=
  { new 32768 buffer fade with
    voices := [⟨0, .playing⟩, Voice.default]
    activeVoice := some 0
    loopPoints := some (0, (m : Int) * 131072) }

omit [Mul S] [One S] [Add S] in
theorem looping_ok (buffer : Grid S) (fade : Fade S) (hL : 0 < fade.values.length) (m : Nat) :
    (looping buffer fade m).Ok :=
  ⟨hL, by simp [looping, new], by simp [looping, new], by
    intro v hv
    simp only [looping, List.mem_cons, List.not_mem_nil, or_false] at hv
    rcases hv with rfl | rfl <;> trivial⟩

/-- The first block of a new sampler that is started and told to loop. -/
theorem looping_block (buffer : Grid S) (fade : Fade S) (hL : 0 < fade.values.length) (m : Nat)
    (b : SamplerBlock S) (hsent : b.sent = [.startNow 0, .enableLoop 1 0 ((m : Int) * 131072)])
    (h0 : 0 ≤ b.start) (hn : 0 < b.out.frames) (f : Nat) (t : Sampler S) (out : Grid S)
    (h : processSample ⟨0, b.out.frames⟩ f 0 (looping buffer fade m) b.out = .ok (t, out)) :
    ((new 32768 buffer fade).sendAll b.sent).processAudio f b.out b.start =
      .ok ({ t with events := ⟨[], [], 32768⟩ }, out) := by
  obtain ⟨s0, hs0⟩ : ∃ s0 : Sampler S, s0 = new 32768 buffer fade := ⟨_, rfl⟩
  have g0 : s0.Ok := by rw [hs0]; exact (new_good 32768 (by decide) (by decide) buffer fade hL).ok
  have hre : (s0.sendAll b.sent).events.receiveEvents =
      ⟨[.startNow 0, .enableLoop 1 0 ((m : Int) * 131072)], [], 32768⟩ := by
    rw [sendAll_eq, hsent, hs0]
    have h1 : ([SamplerEvent.startNow 0, SamplerEvent.enableLoop 1 0 ((m : Int) * 131072)]).foldl push [] =
      [SamplerEvent.startNow 0, SamplerEvent.enableLoop 1 0 ((m : Int) * 131072)] := rfl
    simp only [new, withCapacity, List.nil_append, receiveEvents, h1]
    rw [List.mergeSort_of_pairwise]
    simp [before, TimedEvent.time, TimedEvent.sequenceNumber, SamplerEvent.startNow, SamplerEvent.enableLoop]
  obtain ⟨ev, hev⟩ : ∃ ev : EventProcessor SamplerEvent,
    ev = ⟨[.startNow 0, .enableLoop 1 0 ((m : Int) * 131072)], [], 32768⟩ := ⟨_, rfl⟩
  have hx : ({ s0.sendAll b.sent with events := ev } : Sampler S) = { s0 with events := ev } := by
    rw [sendAll_eq]
  rw [← hev] at hre
  have h1 : s0.processEvent (.startNow 0) b.start = { looping buffer fade m with loopPoints := none } := by
    have e : s0.processEvent (.startNow 0) b.start = s0.start 0 0 := rfl
    have e2 := (start_free (s := s0) (by rw [hs0]; simp [activePosition, new]))
    have e3 : (s0.takeVoice 0).voices = [⟨0, .playing⟩, Voice.default] ∧
      (s0.takeVoice 0).activeVoice = some 0 := by rw [hs0]; exact ⟨rfl, rfl⟩
    have e4 := start_same s0 0 0
    rw [e]
    rw [e3.1, e3.2] at e2
    have e5 : s0.start 0 0 = { s0 with
        voices := (s0.start 0 0).voices, activeVoice := (s0.start 0 0).activeVoice
        position := 0, startPosition := 0, completedLoops := 0 } := by
      have a1 := e4.1
      have a2 := e4.2.1
      have a3 := e4.2.2.1
      have a4 := e4.2.2.2.1
      have a5 := e4.2.2.2.2
      have a6 : (s0.start 0 0).position = 0 := rfl
      have a7 : (s0.start 0 0).startPosition = 0 := rfl
      have a8 : (s0.start 0 0).completedLoops = 0 := rfl
      generalize s0.start 0 0 = y at *
      cases y
      simp only at a1 a2 a3 a4 a5 a6 a7 a8
      subst a1 a2 a3 a4 a5 a6 a7 a8
      rfl
    rw [e5, e2.1, e2.2, hs0]
    rfl
  rw [← hs0, processAudio_eq, hre, hx, hev]
  simp only
  rw [← hev, blockLoop_first (s := { s0 with events := ev }) g0.rate g0.rate' hn (by exact h0) f,
    processEvent_ev, h1]
  rw [blockLoop_first (by show 0 < 32768; decide) (by show 32768 < 2 ^ 32; decide) hn (by exact h0) f]
  have h2 : ({ ({ looping buffer fade m with loopPoints := none } : Sampler S) with events := ev } :
      Sampler S).processEvent (.enableLoop 1 0 ((m : Int) * 131072)) b.start =
      { looping buffer fade m with events := ev } := rfl
  rw [h2, blockLoop_nil _ _ _ _ hn, processSample_ev, h]
  rfl

/-- A loop over the first `m` frames, played twice: the second voice is at the end of the loop. -/
theorem looping_twice (buffer : Grid S) (fade : Fade S) (hL : 0 < fade.values.length) (m : Nat)
    (hm : 0 < m) (out : Grid S) (hout : out.frames = 2 * m) :
    ∃ f t out', processSample ⟨0, out.frames⟩ f 0 (looping buffer fade m) out = .ok (t, out') ∧ t.Ok ∧
      t.buffer = buffer ∧ t.sampleRate = 32768 ∧ t.position = (2 * m : Nat) * 131072 ∧
      t.activeVoice = some 1 ∧ t.voices[1]? = some ⟨m, .playing⟩ := by
  obtain ⟨a, ha⟩ : ∃ a : Sampler S, a = looping buffer fade m := ⟨_, rfl⟩
  have oka : a.Ok := by rw [ha]; exact looping_ok buffer fade hL m
  have ra : a.sampleRate = 32768 := by rw [ha]; rfl
  have pa : a.position = (0 : Nat) * 131072 := by rw [ha]; rfl
  have la : a.loopPoints = some (0, (m : Int) * 131072) := by rw [ha]; rfl
  have na : a.nextLoopPosition = (m : Nat) * 131072 := by
    rw [nextLoopPosition_some oka.rate la, ha]
    simp [looping, new, Timestamp.zero]
  -- the first time through the loop
  have h1 := processSample_exact oka ra pa na hm (w := ⟨0, out.frames⟩) (out := out) (fp := 0)
    (by simp only; omega) (by simp only; omega) 2
  simp only [Nat.sub_zero, Nat.zero_add, show min m out.frames = m by omega] at h1
  obtain ⟨b, hb⟩ : ∃ b : Sampler S, b = a.advanced m := ⟨_, rfl⟩
  have okb : b.Ok := by rw [hb]; exact advanced_ok oka m
  have sb := advanced_same a m
  rw [← hb] at sb
  have pb : b.position = (m : Nat) * 131072 := by
    have := advanced_position ra pa m
    rw [← hb, Nat.zero_add] at this
    exact this
  have lb := sb.loopPoints.trans la
  have rb := sb.sampleRate.trans ra
  have nb : b.nextLoopPosition = (m : Nat) * 131072 := by
    rw [nextLoopPosition_some okb.rate lb, hb]
    simp [advanced, ha, looping, new, Timestamp.zero]
  have vb : b.voices = [⟨m, .playing⟩, Voice.default] := by
    rw [hb, ha]
    simp [advanced, looping, Voice.after, Voice.default]
  have ab : b.activeVoice = some 0 := by rw [hb, ha]; rfl
  obtain ⟨o1, ho1⟩ : ∃ o1, o1 = a.mixed out ⟨0, m⟩ := ⟨_, rfl⟩
  have fo1 : o1.frames = out.frames := by rw [ho1]; rfl
  -- the end of the loop
  have h2 := processSample_wrap okb rb pb nb (w := ⟨0, out.frames⟩) (out := o1) (fp := m)
    (by simp only; omega) (by rw [lb]; rfl) 1
  obtain ⟨c, hc⟩ : ∃ c : Sampler S, c = b.finishSample := ⟨_, rfl⟩
  have okc : c.Ok := by rw [hc]; exact finishSample_ok okb
  have sc := finishSample_same b
  rw [← hc] at sc
  have pc : c.position = (m : Nat) * 131072 := by rw [hc, finishSample_position]; exact pb
  have lc := sc.loopPoints.trans lb
  have rc := sc.sampleRate.trans rb
  have nc : c.nextLoopPosition = (2 * m : Nat) * 131072 := by
    rw [hc, finishSample_next okb.rate lb, nb]
    push_cast
    ring
  have vc : c.voices = [⟨m, .fadingOut 0⟩, ⟨0, .playing⟩] ∧ c.activeVoice = some 1 := by
    have e1 : c = ({ b with completedLoops := b.completedLoops + 1 } : Sampler S).takeVoice 0 := by
      have e0 : b.finishSample = b.loopBack 0 := by unfold finishSample; rw [lb]
      rw [hc, e0]
      simp only [loopBack, assignVoice]
      have e2 : roundUsize (Timestamp.asSamples 0 b.sampleRate) = 0 :=
        roundUsize_eq_zero (by norm_num [Timestamp.asSamples, Timestamp.asSeconds])
      rw [e2, if_neg]
      unfold activePosition
      simp only [ab, vb]
      simp
      omega
    rw [e1]
    unfold takeVoice stop
    simp only [vb, List.map_cons, List.map_nil, Voice.stop, Voice.default]
    exact ⟨rfl, rfl⟩
  -- the second time through the loop
  have h3 := processSample_exact okc rc pc nc (by omega) (w := ⟨0, out.frames⟩) (out := o1) (fp := m)
    (by simp only; omega) (by simp only; omega) 0
  simp only [show min (2 * m - m) (out.frames - m) = m by omega] at h3
  have h4 : processSample ⟨0, out.frames⟩ 0 (m + m) (c.advanced m) (c.mixed o1 ⟨0 + m, m⟩) =
    .ok (c.advanced m, c.mixed o1 ⟨0 + m, m⟩) := processSample_done (by simp only; omega)
  refine ⟨3, c.advanced m, c.mixed o1 ⟨0 + m, m⟩, ?_, advanced_ok okc m, ?_, rc, ?_, vc.2, ?_⟩
  · rw [← ha, h1, ← hb, ← ho1, h2, ← hc, h3, h4]
  · have e : (c.advanced m).buffer = a.buffer := sc.buffer.trans sb.buffer
    rw [e, ha]
    rfl
  · have := advanced_position rc pc m
    rw [this]
    push_cast
    ring
  · simp [advanced, vc.1, Voice.after]

end Render
end Sampler
end Rawdio
