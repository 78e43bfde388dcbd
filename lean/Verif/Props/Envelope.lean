import Mathlib.Tactic.NormNum
import Verif.Lemmas.Envelope
import Verif.Props.Follower

/-! # Properties of the envelope node (C51, C68) -/

namespace Rawdio
namespace EnvelopeNode

open Buf

/-- A series of blocks during which the control side does not look at the notifications. -/
noncomputable def blocks (e : EnvelopeNode) (rounds fuel : Nat) (inputs : List (Buf ℝ)) : Res EnvelopeNode :=
  inputs.foldlM (fun e input => e.processAudio rounds fuel input) e

theorem new_ok (sr cc a r : Nat) (f : ℚ) (hsr : 0 < sr) (hf : 0 < f) :
    ∃ e, new sr cc a r f = .ok e ∧ e.Ok cc (sr / f) 0 ∧ e.channel = [] ∧
      e.envelopes = List.replicate cc (Follower.new sr a r) ∧ e.peaks = List.replicate cc 0 := by
  obtain ⟨p, e1, e2⟩ := Periodic.new_at hsr hf
  refine ⟨⟨List.replicate cc (Follower.new sr a r), p, List.replicate cc 0, [], []⟩, ?_, ⟨?_, ?_, e2⟩, rfl, rfl, rfl⟩
  · unfold new
    simp only [e1, bind, Except.bind]
  · simp
  · simp

/-- What is inspected in a block when the samples to the next notification are at least as many as there are
channels: of each channel the samples up to the next notification, no further.  Notifications are sent, in the
order of the channels, exactly when the total of frames reaches or passes a multiple of the interval. -/
theorem C51_what_is_inspected (e : EnvelopeNode) (input : Buf ℝ) (hi : input.WF) (interval : ℚ) (total : Nat)
    (h : e.Ok input.channelCount interval total) (fuel rounds : Nat)
    (hfuel : (input.frameCount : ℚ) / interval + 1 < fuel) (hpos : 0 < input.channelCount)
    (hcc : input.channelCount ≤ min input.frameCount e.notification.samplesUntilNextNotification)
    (hroom : e.channel.length + input.channelCount ≤ 64) :
    ∃ (e' : EnvelopeNode) (peaks : List ℝ), e.processAudio (rounds + 2) fuel input = .ok e' ∧
      e'.Ok input.channelCount interval (total + input.frameCount) ∧ peaks.length = input.channelCount ∧
      e'.notifications = e.notifications ∧
      (∀ (c : Nat) (v : Follower) (p : ℝ), e.envelopes[c]? = some v → e.peaks[c]? = some p →
        e'.envelopes[c]? = some (v.run (input.firstSamples c
          (min input.frameCount e.notification.samplesUntilNextNotification))) ∧
        peaks[c]? = some (peakOf p (v.values (input.firstSamples c
          (min input.frameCount e.notification.samplesUntilNextNotification))))) ∧
      (⌊(total : ℚ) / interval⌋ < ⌊((total + input.frameCount : Nat) : ℚ) / interval⌋ →
        e'.channel = e.channel ++ (List.range input.channelCount).map (fun c => ⟨c, (peaks[c]?).getD 0⟩) ∧
        e'.peaks = peaks.map fun _ => 0) ∧
      (¬ ⌊(total : ℚ) / interval⌋ < ⌊((total + input.frameCount : Nat) : ℚ) / interval⌋ →
        e'.channel = e.channel ∧ e'.peaks = peaks) :=
  last_round e input hi interval total h fuel rounds hfuel hpos hcc (fun _ => hroom)

/-- C51, for blocks that end no later than the next notification and have at least as many frames as channels:
every frame of every channel contributes to the peak, which is kept or reported.  Missing for the full claim:
all other blocks. -/
theorem C51_every_sample_partial (e : EnvelopeNode) (input : Buf ℝ) (hi : input.WF) (interval : ℚ) (total : Nat)
    (h : e.Ok input.channelCount interval total) (fuel rounds : Nat)
    (hfuel : (input.frameCount : ℚ) / interval + 1 < fuel) (hpos : 0 < input.channelCount)
    (hcc : input.channelCount ≤ input.frameCount)
    (hnext : input.frameCount ≤ e.notification.samplesUntilNextNotification)
    (hroom : e.channel.length + input.channelCount ≤ 64) :
    ∃ (e' : EnvelopeNode) (peaks : List ℝ), e.processAudio (rounds + 2) fuel input = .ok e' ∧
      e'.Ok input.channelCount interval (total + input.frameCount) ∧ peaks.length = input.channelCount ∧
      (∀ (c : Nat) (v : Follower) (p : ℝ), e.envelopes[c]? = some v → e.peaks[c]? = some p →
        e'.envelopes[c]? = some (v.run (input.firstSamples c input.frameCount)) ∧
        peaks[c]? = some (peakOf p (v.values (input.firstSamples c input.frameCount)))) ∧
      ((∃ k : Nat, (total : ℚ) < (k + 1) * interval ∧ (k + 1) * interval ≤ (total + input.frameCount : Nat)) →
        e'.channel = e.channel ++ (List.range input.channelCount).map (fun c => ⟨c, (peaks[c]?).getD 0⟩) ∧
        e'.peaks = peaks.map fun _ => 0) ∧
      (¬ (∃ k : Nat, (total : ℚ) < (k + 1) * interval ∧ (k + 1) * interval ≤ (total + input.frameCount : Nat)) →
        e'.channel = e.channel ∧ e'.peaks = peaks) := by
  have hmin : min input.frameCount e.notification.samplesUntilNextNotification = input.frameCount := min_eq_left hnext
  obtain ⟨e', ps, e1, e2, e3, _, e4, e5, e6⟩ := last_round e input hi interval total h fuel rounds hfuel hpos
    (by rw [hmin]; exact hcc) (fun _ => hroom)
  rw [hmin] at e4
  have hI := h.notification.pos
  refine ⟨e', ps, e1, e2, e3, e4, ?_, ?_⟩
  · intro hk
    exact e5 ((Periodic.crossed_iff hI _ _).mpr hk)
  · intro hk
    exact e6 (fun hlt => hk ((Periodic.crossed_iff hI _ _).mp hlt))

/-- A mono input of two frames, for the example. -/
noncomputable def monoInput : Buf ℝ := owned [1, -2] 1 2 2

example : ∃ (e e' : EnvelopeNode), new 2 1 0 0 1 = .ok e ∧ e.processAudio 2 4 monoInput = .ok e' ∧
    ∃ p, e'.channel = [⟨0, p⟩] := by
  obtain ⟨e, e1, e2, e3, _, _⟩ := new_ok 2 1 0 0 1 (by omega) (by norm_num)
  have hn : e.notification.samplesUntilNextNotification = 2 := by
    unfold Periodic.samplesUntilNextNotification
    rw [e2.notification.next]
    norm_num
    rfl
  obtain ⟨e', ps, d1, _, d3, _, d5, _⟩ := C51_every_sample_partial e monoInput rfl (2 / 1) 0 e2 4 0
    (by norm_num [monoInput, frameCount]) (by simp [monoInput, channelCount]) (by simp [monoInput, channelCount, frameCount])
    (by rw [hn]; simp [monoInput, frameCount]) (by rw [e3]; simp [monoInput, channelCount])
  refine ⟨e, e', e1, d1, (ps[0]?).getD 0, ?_⟩
  rw [(d5 ⟨0, by norm_num, by norm_num [monoInput, frameCount]⟩).1, e3]
  simp [monoInput, channelCount]

/-- A follower with no attack time follows at once. -/
theorem instant_value (sr : ℝ) (r : Nat) (x : ℝ) (hx : 0 < |x|) : ((Follower.new sr 0 r).process x).2 = |x| := by
  unfold Follower.process Follower.new
  simp only
  rw [if_pos hx]
  unfold Follower.calculateCoefficient
  simp

/-- C51 is violated: a mono meter for 2 frames per notification, with instant attack, is given a block of four
frames of which the last is loud.  It reports silence and keeps nothing: the sample is lost, although a follower
given the samples reaches 1. -/
theorem C51_skips_violated : ∃ (e e' : EnvelopeNode), new 2 1 0 0 1 = .ok e ∧
    e.processAudio 2 4 (owned [0, 0, 0, 1] 1 4 2) = .ok e' ∧ e'.channel = [⟨0, 0⟩] ∧ e'.peaks = [0] ∧
    peakOf 0 ((Follower.new 2 0 0).values [0, 0, 0, 1]) = 1 := by
  obtain ⟨e, e1, e2, e3, e4, e5⟩ := new_ok 2 1 0 0 1 (by omega) (by norm_num)
  have hn : e.notification.samplesUntilNextNotification = 2 := by
    unfold Periodic.samplesUntilNextNotification
    rw [e2.notification.next]
    norm_num
    rfl
  have hz : ∀ (v : Follower), v.level = 0 → (v.process 0).2 = 0 := by
    intro v hv
    unfold Follower.process
    simp [hv]
  have hz' : ∀ (v : Follower), v.level = 0 → (v.process 0).1 = v := by
    intro v hv
    obtain ⟨_, _, _, _, h4⟩ := Follower.process_eq v 0
    rw [h4, hz v hv, ← hv]
  obtain ⟨e', ps, d1, d2, d3, _, d4, d5, _⟩ := C51_what_is_inspected e (owned [0, 0, 0, 1] 1 4 2) rfl (2 / 1) 0 e2 4 0
    (by norm_num [frameCount]) (by simp [channelCount]) (by rw [hn]; simp [channelCount, frameCount])
    (by rw [e3]; simp [channelCount])
  have h0 := d4 0 (Follower.new 2 0 0) 0 (by rw [e4]; simp) (by rw [e5]; simp)
  have hl : (Follower.new 2 0 0).level = 0 := rfl
  rw [hn] at h0
  have hs : (owned [0, 0, 0, 1] 1 4 2 : Buf ℝ).firstSamples 0
      (min (owned [0, 0, 0, 1] 1 4 2 : Buf ℝ).frameCount 2) = [0, 0] := by
    simp [firstSamples, sampleOr0, sample?, frameCount, List.range_succ]
  have hv : (Follower.new 2 0 0).values [0, 0] = [0, 0] := by
    simp only [Follower.values, hz _ hl, hz' _ hl]
  have hpk : ps[0]? = some 0 := by
    rw [h0.2, hs, hv]
    simp [peakOf]
  have hps : ps = [0] := by
    match ps, d3, hpk with
    | [p], _, h => simpa using h
  have hdue := d5 (by norm_num [frameCount])
  refine ⟨e, e', e1, d1, ?_, ?_, ?_⟩
  · rw [hdue.1, e3, hps]
    simp [channelCount]
  · rw [hdue.2, hps]
    rfl
  · simp only [Follower.values, hz _ hl, hz' _ hl, instant_value 2 0 1 (by norm_num)]
    simp [peakOf]

/-- A silent stereo block. -/
noncomputable def silence (frames : Nat) : Buf ℝ := owned (List.replicate (2 * frames) 0) 2 frames 48000

/-- C51 is violated: for every sample rate and every block size of at least two frames there is a notification
frequency (for 48 kHz and 512 frames it is about 46.85 Hz) at which a stereo node stops the audio thread in the
third block. -/
theorem C51_aborts_violated (sr F a r : Nat) (hsr : 0 < sr) (hF : 2 ≤ F) :
    ∃ e, new sr 2 a r (sr / (2 * F + 1 / 2)) = .ok e ∧
      e.blocks 2 5 [silence F, silence F, silence F] = .error .panic := by
  have hsr' : (0 : ℚ) < sr := by exact_mod_cast hsr
  have hF' : (2 : ℚ) ≤ F := by exact_mod_cast hF
  have hI : (sr : ℚ) / (sr / (2 * F + 1 / 2)) = 2 * F + 1 / 2 := by
    rw [div_div_eq_mul_div, mul_comm, mul_div_assoc, div_self hsr'.ne', mul_one]
  obtain ⟨e, e1, e2, e3, _, _⟩ := new_ok sr 2 a r (sr / (2 * F + 1 / 2)) hsr (by positivity)
  rw [hI] at e2
  refine ⟨e, e1, ?_⟩
  have hwf : (silence F).WF := by simp [silence, WF]
  have hIpos : (0 : ℚ) < 2 * F + 1 / 2 := by positivity
  have hfuel : ((silence F).frameCount : ℚ) / (2 * F + 1 / 2) + 1 < (5 : Nat) := by
    have : (F : ℚ) / (2 * F + 1 / 2) < 1 := by
      rw [div_lt_one hIpos]
      linarith
    show (F : ℚ) / _ + 1 < _
    push_cast
    linarith
  have hfl0 : ∀ s : Nat, s ≤ 2 * F → ⌊(s : ℚ) / (2 * F + 1 / 2)⌋ = 0 := by
    intro s hs
    have hs' : (s : ℚ) ≤ 2 * F := by exact_mod_cast hs
    rw [Int.floor_eq_zero_iff]
    exact ⟨by positivity, by rw [div_lt_one hIpos]; linarith⟩
  have huntil : ∀ (e : EnvelopeNode) (s : Nat), e.Ok 2 (2 * F + 1 / 2) s → s ≤ 2 * F →
      e.notification.samplesUntilNextNotification = 2 * F + 1 - s := by
    intro e s h hs
    unfold Periodic.samplesUntilNextNotification
    rw [h.notification.next, hfl0 s hs]
    have : ⌈((2 * F + 1 / 2) * (((0 : Int) : ℚ) + 1) - s : ℚ)⌉ = (2 * F + 1 - s : Int) := by
      rw [Int.ceil_eq_iff]
      push_cast
      constructor <;> linarith
    rw [this]
    omega
  -- the first two blocks
  have hstep : ∀ (e : EnvelopeNode) (s : Nat), e.Ok 2 (2 * F + 1 / 2) s → e.channel = [] → s + F ≤ 2 * F →
      ∃ e', e.processAudio 2 5 (silence F) = .ok e' ∧ e'.Ok 2 (2 * F + 1 / 2) (s + F) ∧ e'.channel = [] := by
    intro e s h hc hs
    obtain ⟨e', ps, d1, d2, _, _, _, _, d6⟩ := last_round e (silence F) hwf (2 * F + 1 / 2) s h 5 0 hfuel
      (by simp [silence, channelCount])
      (by rw [huntil e s h (by omega)]; show 2 ≤ min F _; omega)
      (fun _ => by rw [hc]; simp [silence, channelCount, envelopeChannelCapacity])
    refine ⟨e', d1, d2, ?_⟩
    have h0 := hfl0 s (by omega)
    have h1 := hfl0 (s + F) hs
    rw [(d6 (by show ¬ _ < ⌊((s + F : Nat) : ℚ) / _⌋; rw [h0, h1]; omega)).1, hc]
  obtain ⟨m1, c1, c2, c3⟩ := hstep e 0 e2 e3 (by omega)
  obtain ⟨m2, b1, b2, b3⟩ := hstep m1 (0 + F) c2 c3 (by omega)
  have hu2 : m2.notification.samplesUntilNextNotification = 1 := by rw [huntil m2 _ b2 (by omega)]; omega
  -- the third
  obtain ⟨es, ps, g1, g2, g3, _, _⟩ := channels_ok (silence F) hwf 0 1 (by show 0 + 1 ≤ F; omega) m2
    (by rw [b2.envelopes]; rfl) (by rw [b2.peaks]; rfl) 2 (le_refl _)
  obtain ⟨p', b, f1, f2, f3⟩ := b2.notification.advance F 5 hfuel
  have hfl1 : ⌊((0 + F + F + F : Nat) : ℚ) / (2 * F + 1 / 2)⌋ = 1 := by
    rw [Int.floor_eq_iff]
    push_cast
    rw [le_div_iff₀ hIpos, div_lt_iff₀ hIpos]
    constructor <;> linarith
  have hb : b = true := by rw [f3, hfl0 _ (by omega), hfl1]; omega
  subst hb
  have hu3 : p'.samplesUntilNextNotification = F + 1 := by
    unfold Periodic.samplesUntilNextNotification
    rw [f2.next, hfl1]
    have : ⌈((2 * F + 1 / 2) * (((1 : Int) : ℚ) + 1) - ((0 + F + F + F : Nat) : ℚ) : ℚ)⌉ = (F + 1 : Int) := by
      rw [Int.ceil_eq_iff]
      push_cast
      constructor <;> linarith
    rw [this]
    omega
  unfold blocks
  simp only [List.foldlM_cons, List.foldlM_nil, c1, b1, bind, Except.bind]
  have hthird : m2.processAudio 2 5 (silence F) = .error .panic := by
    unfold processAudio
    rw [loop, if_pos (by simp [silence, channelCount]), hu2]
    have hmin : min (silence F).frameCount 1 = 1 := by show min F 1 = 1; omega
    rw [hmin]
    have hg1 : (List.range (silence F).channelCount).foldlM (channelStep (silence F) 0 1) m2 =
      .ok { m2 with envelopes := es, peaks := ps } := g1
    simp only [hg1, bind, Except.bind]
    unfold notify
    have hf1 : m2.notification.advance 5 (silence F).frameCount = .ok (p', true) := f1
    simp only [hf1, bind, Except.bind, if_true]
    unfold sendNotifications
    rw [sends_ok _ _ (by rw [show (silence F).channelCount = 2 from rfl]; simp only; rw [g3, b2.peaks])
      (by simp only; rw [b3]; simp [silence, channelCount, envelopeChannelCapacity])]
    simp only [bind, Except.bind]
    rw [loop, if_pos (by simp [silence, channelCount])]
    simp only [hu3]
    have hmin2 : min (silence F).frameCount (F + 1) = F := by show min F (F + 1) = F; omega
    rw [hmin2]
    obtain ⟨data, q1, q2, _⟩ := slice_samples hwf (show 0 < (silence F).channelCount by simp [silence, channelCount])
      (show 0 + 0 ≤ (silence F).frameCount by omega)
    have hrange : List.range (silence F).channelCount = [0, 1] := rfl
    rw [hrange, List.foldlM_cons]
    have : ∀ e, channelStep (silence F) 1 F e 0 = .error .panic := by
      intro e
      unfold channelStep
      simp only [q1, bind, Except.bind]
      have : sliceRange data 1 (1 + F) = .error .panic := by
        unfold sliceRange
        rw [if_neg]
        rw [q2]
        show ¬ (_ ∧ 1 + F ≤ F)
        omega
      rw [this]
    simp only [Nat.zero_add, this, bind, Except.bind]
  rw [hthird]

/-- C68, when the channel has room for one notification from each channel: the audio thread does not wait.  (The
other hypotheses are those of `C51_what_is_inspected`.)  Missing for the full claim: a channel without room. -/
theorem C68_never_waits_partial (e : EnvelopeNode) (input : Buf ℝ) (hi : input.WF) (interval : ℚ) (total : Nat)
    (h : e.Ok input.channelCount interval total) (fuel rounds : Nat)
    (hfuel : (input.frameCount : ℚ) / interval + 1 < fuel) (hpos : 0 < input.channelCount)
    (hcc : input.channelCount ≤ min input.frameCount e.notification.samplesUntilNextNotification)
    (hroom : e.channel.length + input.channelCount ≤ 64) :
    ∃ e', e.processAudio (rounds + 2) fuel input = .ok e' := by
  obtain ⟨e', _, h, _⟩ := last_round e input hi interval total h fuel rounds hfuel hpos hcc (fun _ => hroom)
  exact ⟨e', h⟩

/-- C68: when a notification is due and the channel has no room, the audio thread waits for the control
thread. -/
theorem C68_waits (e : EnvelopeNode) (input : Buf ℝ) (hi : input.WF) (interval : ℚ) (total : Nat)
    (h : e.Ok input.channelCount interval total) (fuel rounds : Nat)
    (hfuel : (input.frameCount : ℚ) / interval + 1 < fuel) (hpos : 0 < input.channelCount)
    (hchan : e.channel.length ≤ 64) (hroom : 64 < e.channel.length + input.channelCount)
    (hdue : ∃ k : Nat, (total : ℚ) < (k + 1) * interval ∧ (k + 1) * interval ≤ (total + input.frameCount : Nat)) :
    e.processAudio (rounds + 1) fuel input = .error .block := by
  obtain ⟨es, ps, e1, e2, e3, _, _⟩ := channels_ok input hi 0
    (min input.frameCount e.notification.samplesUntilNextNotification) (by omega) e (by rw [h.envelopes])
    (by rw [h.peaks]) input.channelCount (le_refl _)
  obtain ⟨p', b, d1, d2, d3⟩ := h.notification.advance input.frameCount fuel hfuel
  have hb : b = true := d3.mpr ((Periodic.crossed_iff h.notification.pos _ _).mpr hdue)
  subst hb
  unfold processAudio
  rw [loop, if_pos hpos]
  simp only [e1, bind, Except.bind]
  unfold notify
  simp only [d1, bind, Except.bind, if_true]
  unfold sendNotifications
  rw [sends_block _ _ (by simp only; rw [e3, h.peaks]) (by simp only; exact hchan) (by simp only; exact hroom)]
  rfl

/-- A mono block of one frame. -/
noncomputable def oneFrame : Buf ℝ := owned [0] 1 1 48000

/-- C68 is violated: a mono node that notifies every frame stops the audio thread after 64 one-frame blocks
during which the control side has not looked at the notifications. -/
theorem C68_never_waits_violated (a r : Nat) : ∃ e, new 48000 1 a r 48000 = .ok e ∧
    e.blocks 2 3 (List.replicate 65 oneFrame) = .error .block := by
  obtain ⟨e, e1, e2, e3, _, _⟩ := new_ok 48000 1 a r 48000 (by omega) (by norm_num)
  have hI : ((48000 : Nat) : ℚ) / 48000 = 1 := by norm_num
  rw [hI] at e2
  refine ⟨e, e1, ?_⟩
  have hdue : ∀ s : Nat, ∃ k : Nat, (s : ℚ) < (k + 1) * 1 ∧ ((k : ℚ) + 1) * 1 ≤ (s + oneFrame.frameCount : Nat) := by
    intro s
    refine ⟨s, by linarith, ?_⟩
    show _ ≤ ((s + 1 : Nat) : ℚ)
    push_cast
    linarith
  have hfuel : (oneFrame.frameCount : ℚ) / 1 + 1 < (3 : Nat) := by
    show ((1 : Nat) : ℚ) / 1 + 1 < _
    norm_num
  have key : ∀ n, n ≤ 64 → ∃ e', e.blocks 2 3 (List.replicate n oneFrame) = .ok e' ∧ e'.Ok 1 1 n ∧ e'.channel.length = n := by
    intro n
    induction n with
    | zero => intro _; exact ⟨e, rfl, e2, by rw [e3]; rfl⟩
    | succ n ih =>
      intro hn
      obtain ⟨e', c1, c2, c3⟩ := ih (by omega)
      have hu : e'.notification.samplesUntilNextNotification = 1 := by
        unfold Periodic.samplesUntilNextNotification
        rw [c2.notification.next]
        simp
      obtain ⟨e'', ps, d1, d2, _, _, _, d5, _⟩ := last_round e' oneFrame rfl 1 n c2 3 0 hfuel (by simp [oneFrame, channelCount])
        (by rw [hu]; simp [oneFrame, channelCount, frameCount]) (fun _ => by rw [c3]; show n + 1 ≤ 64; omega)
      refine ⟨e'', ?_, d2, ?_⟩
      · unfold blocks at c1 ⊢
        rw [List.replicate_succ', List.foldlM_append, c1]
        simp only [List.foldlM_cons, List.foldlM_nil, bind_pure]
        exact d1
      · rw [(d5 ((Periodic.crossed_iff (by norm_num) _ _).mpr (hdue n))).1]
        simp [c3, oneFrame, channelCount]
  obtain ⟨e', c1, c2, c3⟩ := key 64 (le_refl _)
  have := C68_waits e' oneFrame rfl 1 64 c2 3 1 hfuel (by simp [oneFrame, channelCount]) (by omega)
    (by rw [c3]; simp [oneFrame, channelCount]) (hdue 64)
  unfold blocks at c1 ⊢
  rw [show (65 : Nat) = 64 + 1 from rfl, List.replicate_succ', List.foldlM_append, c1]
  simp only [List.foldlM_cons, List.foldlM_nil, bind_pure]
  exact this

end EnvelopeNode
end Rawdio
