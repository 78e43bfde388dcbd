import Verif.Lemmas.AdsrShape
import Verif.Lemmas.RecorderLive

/-! # Properties of the ADSR node (C47, C48, C66) -/

namespace Rawdio

/-! ## C66: events take effect on their frames -/

/-- C66: a new node plays every history of blocks without fault or waiting, and exactly as specified frame
by frame: the gain of each frame comes from the envelope after all the events of that frame, in the order of
their times and then of their calls, and events after a block's end wait. Up to 32 calls are made between two
blocks. -/
theorem C66_events_on_frames {sr maximum : Nat} (hsr : 0 < sr) (bs : List AdsrBlock)
    (hb : ∀ b ∈ bs, b.Ok sr maximum ∧ b.sent.length ≤ adsrEventCapacity) :
    ∃ p outs, (AdsrProcessor.new sr maximum).run bs = .ok (p, outs) ∧
      AdsrBlock.Follows sr [] (AdsrEnvelope.new sr 0 0 (Level.fromDb 0) 0) bs outs :=
  AdsrProcessor.run_follows hsr bs _ (AdsrProcessor.ready_new sr maximum) hb

/-- A block for examples: `n` frames, one channel, every sample 1. -/
def AdsrBlock.ones (sent : List AdsrEvent) (start : Int) (n : Nat) : AdsrBlock :=
  ⟨sent, start, ⟨1, n, fun _ _ => 1⟩, ⟨1, n, fun _ _ => 0⟩⟩

theorem AdsrBlock.ones_ok (sent : List AdsrEvent) (start : Int) {n : Nat} (h0 : 0 < n) (h1 : n ≤ 1024) :
    (AdsrBlock.ones sent start n).Ok 48000 1024 :=
  ⟨h0, by show n * 48000 ≤ 2 ^ 33; omega, h1, rfl, rfl⟩

example : ∀ b ∈ [AdsrBlock.ones [⟨0, 0, .setAttack 1⟩, ⟨1, 100000, .noteOn⟩] 0 512,
      AdsrBlock.ones [⟨2, 50000000, .noteOff⟩] 45812984 512],
    b.Ok 48000 1024 ∧ b.sent.length ≤ adsrEventCapacity := by
  intro b hb
  simp only [List.mem_cons, List.not_mem_nil, or_false] at hb
  rcases hb with rfl | rfl
  · exact ⟨AdsrBlock.ones_ok _ _ (by decide) (by decide), by decide⟩
  · exact ⟨AdsrBlock.ones_ok _ _ (by decide) (by decide), by decide⟩

/-! ## C47: the gain is in range -/

/-- C47: if all sustain levels are between 0 and 1, the output of every history is the input times gains
between 0 and 1. -/
theorem C47_gain_range {sr maximum : Nat} (hsr : 0 < sr) (bs : List AdsrBlock)
    (hb : ∀ b ∈ bs, b.Ok sr maximum ∧ b.sent.length ≤ adsrEventCapacity)
    (hs : ∀ b ∈ bs, ∀ x ∈ b.sent, ∀ l, x.eventType = .setSustain l → 0 ≤ l.linear ∧ l.linear ≤ 1) :
    ∃ p outs gain, (AdsrProcessor.new sr maximum).run bs = .ok (p, outs) ∧ AdsrBlock.Plays bs outs gain ∧
      ∀ n, 0 ≤ gain n ∧ gain n ≤ 1 := by
  obtain ⟨p, outs, hrun, hfol⟩ := C66_events_on_frames hsr bs hb
  obtain ⟨gain, h1, h2⟩ := AdsrBlock.Follows.range bs [] _ outs (AdsrProcessor.ok_new hsr maximum)
    (by intro x hx; cases hx) (by
      intro b hb x hx
      have := hs b hb x hx
      cases h : x.eventType with
      | setSustain l => exact this l h
      | _ => trivial) hfol
  exact ⟨p, outs, gain, hrun, h1, h2⟩

example : ∀ b ∈ [AdsrBlock.ones [⟨0, 0, .setSustain ⟨1 / 2⟩⟩, ⟨1, 100000, .noteOn⟩] 0 512],
    ∀ x ∈ b.sent, ∀ l, x.eventType = .setSustain l → 0 ≤ l.linear ∧ l.linear ≤ 1 := by
  intro b hb x hx l hl
  rw [List.mem_singleton] at hb
  subst hb
  change x ∈ [_, _] at hx
  simp only [List.mem_cons, List.not_mem_nil, or_false] at hx
  rcases hx with rfl | rfl
  · cases hl; norm_num
  · cases hl

/-- C47: as long as no note is started the output is silent, whatever else is done. -/
theorem C47_idle_silent {sr maximum : Nat} (hsr : 0 < sr) (bs : List AdsrBlock)
    (hb : ∀ b ∈ bs, b.Ok sr maximum ∧ b.sent.length ≤ adsrEventCapacity)
    (hn : ∀ b ∈ bs, ∀ x ∈ b.sent, x.eventType ≠ .noteOn) :
    ∃ p outs, (AdsrProcessor.new sr maximum).run bs = .ok (p, outs) ∧
      AdsrBlock.Plays bs outs (fun _ => 0) := by
  obtain ⟨p, outs, hrun, hfol⟩ := C66_events_on_frames hsr bs hb
  exact ⟨p, outs, hrun, AdsrBlock.Follows.idle bs [] _ outs rfl (by intro x hx; cases hx) hn hfol⟩

example : ∀ b ∈ [AdsrBlock.ones [⟨0, 0, .setSustain ⟨1 / 2⟩⟩, ⟨1, 100000, .noteOff⟩] 0 512],
    ∀ x ∈ b.sent, x.eventType ≠ .noteOn := by
  intro b hb x hx
  rw [List.mem_singleton] at hb
  subst hb
  change x ∈ [_, _] at hx
  simp only [List.mem_cons, List.not_mem_nil, or_false] at hx
  rcases hx with rfl | rfl <;> simp

/-! ## C48: the stages take their times -/

/-- A note for examples: times in seconds, one block of `n` frames before its end and one of `m` after. -/
def AdsrNote.simple (sr : Nat) (a d : ℝ) (s : Level) (r : ℝ) (n m : Nat) : AdsrNote where
  sampleRate := sr
  maximum := max n m
  attack := a
  decay := d
  sustain := s
  release := r
  onTime := 0
  offTime := 0
  sequence := id
  before := []
  on := AdsrBlock.ones [⟨0, 0, .setAttack a⟩, ⟨1, 0, .setDecay d⟩, ⟨2, 0, .setSustain s⟩, ⟨3, 0, .setRelease r⟩,
    ⟨4, 0, .noteOn⟩] 0 n
  held := []
  off := AdsrBlock.ones [⟨5, 0, .noteOff⟩] 0 m
  after := []

theorem AdsrNote.simple_valid {sr : Nat} {a d : ℝ} {s : Level} {r : ℝ} {n m : Nat} (hsr : 0 < sr)
    (hs : 0 ≤ s.linear ∧ s.linear ≤ 1) (hn : 0 < n) (hm : 0 < m) (h1 : n * sr ≤ 2 ^ 33) (h2 : m * sr ≤ 2 ^ 33)
    (h3 : sr ≤ 2 ^ 32) :
    (AdsrNote.simple sr a d s r n m).Valid where
  rate := hsr
  sustain := hs
  sequence := strictMono_id
  blocks := by
    intro b hb
    unfold AdsrNote.blocks AdsrNote.simple at hb
    simp only [List.nil_append, List.mem_cons, List.not_mem_nil, or_false] at hb
    rcases hb with rfl | rfl
    · exact ⟨hn, h1, le_max_left _ _, rfl, rfl⟩
    · exact ⟨hm, h2, le_max_right _ _, rfl, rfl⟩
  before := by intro b hb; cases hb
  held := by intro b hb; cases hb
  after := by intro b hb; cases hb
  on := rfl
  off := rfl
  start := le_refl _
  onTime := le_refl _
  onBefore := by
    have := Recorder.fromSamples_pos hsr h3 hn
    show (0 : Int) < 0 + _
    rw [zero_add]
    exact this
  offBefore := by
    have := Recorder.fromSamples_pos hsr h3 hm
    show (0 : Int) < 0 + _
    rw [zero_add]
    exact this

/-- C48: before a note is ended its gains are those that were set: silence up to its frame, then a rise to 1
in exactly the frames of the attack time, louder with every frame, then a fall to the sustain level in exactly the
frames of the decay time, quieter with every frame, then the sustain level. -/
theorem C48_attack_decay (h : AdsrNote) (v : h.Valid) :
    ∃ gain, h.PlayedWith gain ∧
      (∀ n, n < h.onFrame → gain n = 0) ∧ 0 < gain h.onFrame ∧
      (∀ n, h.onFrame ≤ n → n + 1 < h.offFrame → n + 1 < h.onFrame + h.attackFrames → gain n < gain (n + 1)) ∧
      (∀ n, h.sustain.linear < 1 → n + 1 < h.offFrame → h.onFrame + h.attackFrames ≤ n + 1 →
        n + 1 < h.onFrame + h.attackFrames + h.decayFrames → gain (n + 1) < gain n) ∧
      (∀ n, h.onFrame ≤ n → n < h.offFrame → n + 1 < h.onFrame + h.attackFrames → gain n < 1) ∧
      (∀ n, n < h.offFrame → n + 1 = h.onFrame + h.attackFrames → gain n = 1) ∧
      (∀ n, h.sustain.linear < 1 → n < h.offFrame → h.onFrame + h.attackFrames ≤ n + 1 →
        n + 1 < h.onFrame + h.attackFrames + h.decayFrames → h.sustain.linear < gain n) ∧
      (∀ n, n < h.offFrame → h.onFrame + h.attackFrames + h.decayFrames ≤ n + 1 →
        gain n = h.sustain.linear) := by
  obtain ⟨h1, h2, h3, h4⟩ := AdsrEnvelope.note_steps v.rate v.sustain h.started_settings h.started_phase
    h.started_envelope
  have hg : ∀ n, h.onFrame ≤ n → n < h.offFrame →
      h.gains n = (h.started.steps (n - h.onFrame + 1)).envelope := by
    intro n hn hn'
    unfold AdsrNote.gains
    rw [if_neg (by omega), if_pos hn']
  have hA : 1 ≤ h.attackFrames := le_max_left _ _
  have hlt := AdsrNote.on_lt_off v
  have hup : ∀ n, n < h.attackFrames → (h.started.steps n).envelope < (h.started.steps (n + 1)).envelope :=
    AdsrEnvelope.note_rises v.rate v.sustain h.started_settings h.started_phase h.started_envelope
  refine ⟨h.gains, AdsrNote.played v, ?_, ?_, ?_, ?_, ?_, ?_, ?_, ?_⟩
  · intro n hn
    unfold AdsrNote.gains
    rw [if_pos hn]
  · rw [hg _ (le_refl _) hlt, Nat.sub_self]
    have := hup 0 hA
    rwa [show (h.started.steps 0).envelope = 0 from h.started_envelope] at this
  · intro n hn hn' hlt'
    rw [hg n hn (by omega), hg (n + 1) (by omega) hn']
    have := hup (n - h.onFrame + 1) (by omega)
    rwa [show n - h.onFrame + 1 + 1 = n + 1 - h.onFrame + 1 by omega] at this
  · intro n hs hn' hge hlt'
    rw [hg n (by omega) (by omega), hg (n + 1) (by omega) hn']
    have := AdsrEnvelope.note_falls v.rate v.sustain hs (AdsrNote.started_ok v) h.started_settings h.started_phase
      h.started_envelope (n + 1 - h.onFrame - h.attackFrames) (show _ < h.decayFrames by omega)
    rw [show stageFrames h.attack h.sampleRate + (n + 1 - h.onFrame - h.attackFrames) + 1 = n + 1 - h.onFrame + 1 by
        show h.attackFrames + _ + 1 = _; omega,
      show stageFrames h.attack h.sampleRate + (n + 1 - h.onFrame - h.attackFrames) = n - h.onFrame + 1 by
        show h.attackFrames + _ = _; omega] at this
    exact this
  · intro n hn hn' hlt
    rw [hg n hn hn']
    exact (h1 _ (show n - h.onFrame + 1 < h.attackFrames by omega)).1
  · intro n hn' heq
    rw [hg n (by omega) hn']
    have : n - h.onFrame + 1 = stageFrames h.attack h.sampleRate := by
      show _ = h.attackFrames
      omega
    rw [this, h2]
  · intro n hs hn' hge hlt
    rw [hg n (by omega) hn']
    have : n - h.onFrame + 1 = stageFrames h.attack h.sampleRate + (n + 1 - h.onFrame - h.attackFrames) := by
      show _ = h.attackFrames + _
      omega
    rw [this]
    exact h3 _ (show _ < h.decayFrames by omega) hs
  · intro n hn' hge
    rw [hg n (by omega) hn',
      h4 (n - h.onFrame + 1) (show h.attackFrames + h.decayFrames ≤ _ by omega)]

example : (AdsrNote.simple 48000 (1 / 1000) (1 / 1000) ⟨1 / 2⟩ (1 / 1000) 512 512).Valid :=
  AdsrNote.simple_valid (by decide) (by norm_num) (by decide) (by decide) (by decide) (by decide) (by decide)

/-- C48, for notes that end at or below a positive sustain level: the gain is 0 from the end of the release
time on, and if the note ends at the sustain level not before. In particular this is so for notes held beyond
attack and decay. Wherever the note ends, it gets quieter with every frame until it is silent and then stays silent.
Missing for the full claim: notes ended above the sustain level, and a sustain level of 0. -/
theorem C48_release_partial (h : AdsrNote) (v : h.Valid) (hs : 0 < h.sustain.linear) :
    ∃ gain, h.PlayedWith gain ∧
      (∀ n, h.offFrame ≤ n + 1 → 0 ≤ gain n ∧ (0 < gain n → gain (n + 1) < gain n) ∧ (gain n = 0 → gain (n + 1) = 0)) ∧
      (gain (h.offFrame - 1) ≤ h.sustain.linear →
        ∀ n, h.offFrame + h.releaseFrames ≤ n + 1 → gain n = 0) ∧
      (h.onFrame + h.attackFrames + h.decayFrames ≤ h.offFrame →
        gain (h.offFrame - 1) = h.sustain.linear ∧
        (∀ n, h.offFrame ≤ n → n + 1 < h.offFrame + h.releaseFrames → 0 < gain n) ∧
        ∀ n, h.offFrame + h.releaseFrames ≤ n + 1 → gain n = 0) := by
  have hlt := AdsrNote.on_lt_off v
  have hR : 1 ≤ h.releaseFrames := le_max_left _ _
  have hg : ∀ n, h.offFrame ≤ n → h.gains n = (h.ended.steps (n - h.offFrame + 1)).envelope := by
    intro n hn
    unfold AdsrNote.gains
    rw [if_neg (by omega), if_neg (by omega)]
  have hrel : h.gains (h.offFrame - 1) ≤ h.sustain.linear →
      ∀ n, h.offFrame + h.releaseFrames ≤ n + 1 → h.gains n = 0 := by
    intro hle n hn
    rw [hg n (by omega)]
    exact AdsrEnvelope.release_within v.rate hs AdsrNote.ended_settings h.ended_phase
      (AdsrNote.ended_ok v).envelope.1 (by rw [AdsrNote.ended_envelope v]; exact hle) _
      (show h.releaseFrames ≤ _ by omega)
  refine ⟨h.gains, AdsrNote.played v, ?_, hrel, ?_⟩
  · intro n hn
    have hn1 : h.gains n = (h.ended.steps (n + 1 - h.offFrame)).envelope := by
      rcases Nat.lt_or_ge n h.offFrame with hlt' | hge
      · have : n = h.offFrame - 1 := by omega
        subst this
        rw [show h.offFrame - 1 + 1 - h.offFrame = 0 by omega]
        exact (AdsrNote.ended_envelope v).symm
      · rw [hg n hge, show n - h.offFrame + 1 = n + 1 - h.offFrame by omega]
    rw [hn1, hg (n + 1) hn]
    obtain ⟨g1, g2, g3⟩ := AdsrEnvelope.release_falls v.rate hs v.sustain.2 AdsrNote.ended_settings h.ended_phase
      (AdsrNote.ended_ok v).envelope.1 (n + 1 - h.offFrame)
    exact ⟨g1, fun hp => (g2 hp).2, g3⟩
  intro hheld
  have hsus : h.gains (h.offFrame - 1) = h.sustain.linear := by
    obtain ⟨_, _, _, h4⟩ := AdsrEnvelope.note_steps v.rate v.sustain h.started_settings h.started_phase
      h.started_envelope
    unfold AdsrNote.gains
    rw [if_neg (by omega), if_pos (by omega),
      h4 _ (show h.attackFrames + h.decayFrames ≤ _ by omega)]
  refine ⟨hsus, ?_, hrel hsus.le⟩
  intro n hn hn'
  rw [hg n hn]
  exact AdsrEnvelope.release_not_before v.rate hs AdsrNote.ended_settings h.ended_phase
    (by rw [AdsrNote.ended_envelope v, hsus]) _ (show _ < h.releaseFrames by omega)

/-- C48: when a note that has ended is silent, exactly. A note that ends at the level `l` takes
`log (10 l + 1) / log (10 s + 1)` times the release time, where `s` is the sustain level: the release time if it ends at
the sustain level, less below it and more above it. -/
theorem C48_release_time (h : AdsrNote) (v : h.Valid) (hs : 0 < h.sustain.linear) (hr : 0 < h.release) :
    ∃ gain, h.PlayedWith gain ∧ ∀ n, h.offFrame ≤ n →
      (gain n = 0 ↔ h.release * h.sampleRate * Real.log (10 * gain (h.offFrame - 1) + 1) ≤
        (n + 1 - h.offFrame : Nat) * Real.log (10 * h.sustain.linear + 1)) := by
  have hlt := AdsrNote.on_lt_off v
  refine ⟨h.gains, AdsrNote.played v, ?_⟩
  intro n hn
  have hg : h.gains n = (h.ended.steps (n + 1 - h.offFrame)).envelope := by
    unfold AdsrNote.gains
    rw [if_neg (by omega), if_neg (by omega), show n - h.offFrame + 1 = n + 1 - h.offFrame by omega]
  rw [hg, ← AdsrNote.ended_envelope v]
  exact AdsrEnvelope.release_silent v.rate hs v.sustain.2 AdsrNote.ended_settings h.ended_phase
    (AdsrNote.ended_ok v).envelope.1 hr _

example : (AdsrNote.simple 48000 0 1 ⟨1 / 2⟩ (1 / 1000) 1 512).Valid ∧
    0 < (AdsrNote.simple 48000 0 1 ⟨1 / 2⟩ (1 / 1000) 1 512).sustain.linear ∧
    0 < (AdsrNote.simple 48000 0 1 ⟨1 / 2⟩ (1 / 1000) 1 512).release :=
  ⟨AdsrNote.simple_valid (by decide) (by norm_num) (by decide) (by decide) (by decide) (by decide) (by decide),
    by norm_num [AdsrNote.simple], by norm_num [AdsrNote.simple]⟩

/-- C48 as claimed for the release: the note is silent from the end of the release time on. -/
def ReleasedInTime : Prop := ∀ h : AdsrNote, h.Valid →
  ∃ gain, h.PlayedWith gain ∧ ∀ n, h.offFrame + h.releaseFrames ≤ n + 1 → gain n = 0

/-- The level of a note that ends while it falls: attack time 0, decay longer than the note. -/
theorem AdsrNote.ended_decaying {h : AdsrNote} (v : h.Valid) (ha : h.attack = 0) (hd : 0 < h.decay)
    (hone : h.offFrame = h.onFrame + 1) : h.gains (h.offFrame - 1) = 1 := by
  obtain ⟨_, h2, _, _⟩ := AdsrEnvelope.note_steps v.rate v.sustain h.started_settings h.started_phase
    h.started_envelope
  have : stageFrames h.attack h.sampleRate = 1 := by rw [ha]; simp [stageFrames]
  rw [this] at h2
  unfold AdsrNote.gains
  rw [if_neg (by omega), if_pos (by omega)]
  have : h.offFrame - 1 - h.onFrame + 1 = 1 := by omega
  rw [this, h2]

theorem AdsrNote.never {h : AdsrNote} (v : h.Valid) (hs : h.sustain.linear = 0) (hr : 0 < h.release)
    (hlevel : 0 < h.gains (h.offFrame - 1)) : ∀ n, h.offFrame ≤ n → h.gains n = h.gains (h.offFrame - 1) := by
  intro n hn
  have hlt := AdsrNote.on_lt_off v
  have hg : h.gains n = (h.ended.steps (n - h.offFrame + 1)).envelope := by
    unfold AdsrNote.gains
    rw [if_neg (by omega), if_neg (by omega)]
  have hc : h.ended.releaseCoefficient = 1 := by
    rw [AdsrNote.ended_settings.release]
    unfold AdsrEnvelope.releaseCoefficientFor AdsrEnvelope.coefficient
    rw [AdsrEnvelope.release_log _ hs.ge, hs, if_neg (not_le.mpr hr)]
    simp
  have he := AdsrNote.ended_envelope v
  rw [← he] at hlevel ⊢
  rw [hg, AdsrEnvelope.release_steps h.ended_phase _ (by
    intro k _ _
    rw [hc]
    simpa using hlevel), hc]
  simp

/-- C48: with a sustain level of 0 and a release time, a note that ends while it can still be heard never
fades: it goes on at the level it had. -/
theorem C48_release_never (h : AdsrNote) (v : h.Valid) (hs : h.sustain.linear = 0) (hr : 0 < h.release) :
    ∃ gain, h.PlayedWith gain ∧
      (0 < gain (h.offFrame - 1) → ∀ n, h.offFrame ≤ n → gain n = gain (h.offFrame - 1)) :=
  ⟨h.gains, AdsrNote.played v, AdsrNote.never v hs hr⟩

example : (AdsrNote.simple 48000 0 1 ⟨0⟩ (1 / 1000) 1 512).Valid :=
  AdsrNote.simple_valid (by decide) (by norm_num) (by decide) (by decide) (by decide) (by decide) (by decide)

/-- C48 fails: with sustain level 0 and a release time of one frame, a note that ends after its first frame
goes on at full level. -/
theorem C48_release_violated : ¬ ReleasedInTime := by
  intro hc
  obtain ⟨h, hh⟩ : ∃ h, h = AdsrNote.simple 48000 0 1 ⟨0⟩ (1 / 48000) 1 512 := ⟨_, rfl⟩
  have v : h.Valid := by
    rw [hh]
    exact AdsrNote.simple_valid (by decide) (by norm_num) (by decide) (by decide) (by decide) (by decide) (by decide)
  obtain ⟨gain, ⟨p, outs, hrun, hplays⟩, hz⟩ := hc h v
  obtain ⟨p', outs', hrun', hplays'⟩ := AdsrNote.played v
  rw [hrun] at hrun'
  cases hrun'
  have hon : h.onFrame = 0 := by
    rw [hh]
    simp [AdsrNote.onFrame, AdsrNote.simple, AdsrBlock.totalFrames, AdsrBlock.ones, frameOf]
  have hoff : h.offFrame = 1 := by
    rw [hh]
    simp [AdsrNote.offFrame, AdsrNote.simple, AdsrBlock.totalFrames, AdsrBlock.ones, frameOf]
  have hR : h.releaseFrames = 1 := by
    rw [hh]
    norm_num [AdsrNote.releaseFrames, AdsrNote.simple, stageFrames]
  have htot : AdsrBlock.totalFrames h.blocks = 513 := by
    rw [hh]
    rfl
  have hu := AdsrBlock.Plays.unique (by
    intro b hb
    rw [hh] at hb
    unfold AdsrNote.blocks AdsrNote.simple at hb
    simp only [List.nil_append, List.mem_cons, List.not_mem_nil, or_false] at hb
    rcases hb with rfl | rfl <;> exact ⟨by decide, fun _ => rfl⟩) hplays hplays' 512 (by rw [htot]; decide)
  have h0 := AdsrNote.ended_decaying v (by rw [hh]; rfl) (by rw [hh]; norm_num [AdsrNote.simple])
    (by rw [hon, hoff])
  have h1 := AdsrNote.never v (by rw [hh]; rfl) (by rw [hh]; norm_num [AdsrNote.simple])
    (by rw [h0]; norm_num) 512 (by omega)
  rw [h0] at h1
  have h2 := hz 512 (by rw [hoff, hR]; decide)
  rw [hu, h1] at h2
  norm_num at h2

theorem AdsrNote.slow {h : AdsrNote} (v : h.Valid) (hs0 : 0 < h.sustain.linear)
    {m : Nat} (hm : 0 < m) (hr : h.release = (m : ℝ) / h.sampleRate)
    (hlevel : h.sustain.linear < h.gains (h.offFrame - 1)) :
    h.releaseFrames = m ∧ 0 < h.gains (h.offFrame + h.releaseFrames - 1) := by
  have hlt := AdsrNote.on_lt_off v
  have hsr : (0 : ℝ) < h.sampleRate := by exact_mod_cast v.rate
  have hm' : (0 : ℝ) < m := by exact_mod_cast hm
  have hmul : h.release * h.sampleRate = m := by rw [hr]; field_simp
  have hR : h.releaseFrames = m := by
    unfold AdsrNote.releaseFrames stageFrames
    rw [hmul, Nat.ceil_natCast]
    omega
  refine ⟨hR, ?_⟩
  have hr0 : 0 < h.release := by rw [hr]; positivity
  have hpos : 0 < 10 * h.sustain.linear + 1 := by linarith
  unfold AdsrNote.gains
  rw [if_neg (by omega), if_neg (by omega)]
  have hn : h.offFrame + h.releaseFrames - 1 - h.offFrame + 1 = m := by omega
  rw [hn]
  have hc : h.ended.releaseCoefficient =
      AdsrEnvelope.coefficient (1 / (10 * h.sustain.linear + 1)) h.release h.sampleRate := by
    rw [AdsrNote.ended_settings.release]
    unfold AdsrEnvelope.releaseCoefficientFor
    rw [AdsrEnvelope.release_log _ hs0.le]
  have hcm : h.ended.releaseCoefficient ^ m = 1 / (10 * h.sustain.linear + 1) := by
    rw [hc]
    unfold AdsrEnvelope.coefficient
    rw [if_neg (not_le.mpr hr0), hmul, ← Real.exp_nat_mul, mul_div_cancel₀ _ hm'.ne', Real.exp_log (by positivity)]
  have hcr : 0 ≤ h.ended.releaseCoefficient ∧ h.ended.releaseCoefficient ≤ 1 := (AdsrNote.ended_ok v).release
  have he := AdsrNote.ended_envelope v
  rw [← he] at hlevel
  have hk : ∀ k, k ≤ m → 0 < AdsrEnvelope.releaseTarget + h.ended.releaseCoefficient ^ k *
      (h.ended.envelope - AdsrEnvelope.releaseTarget) := by
    intro k hk
    have h1 : h.ended.releaseCoefficient ^ m ≤ h.ended.releaseCoefficient ^ k :=
      pow_le_pow_of_le_one hcr.1 hcr.2 hk
    rw [hcm, div_le_iff₀ hpos] at h1
    have h2 : 0 < h.ended.releaseCoefficient ^ k := by
      by_contra h0
      nlinarith [not_lt.mp h0]
    unfold AdsrEnvelope.releaseTarget
    nlinarith
  rw [AdsrEnvelope.release_steps h.ended_phase m (fun k _ h2 => hk k h2)]
  exact hk m (le_refl _)

/-- C48: with a release time of a whole number of frames, a note that ends above the sustain level is still
sounding at the end of its release time. -/
theorem C48_release_slow (h : AdsrNote) (v : h.Valid) (hs : 0 < h.sustain.linear) (m : Nat) (hm : 0 < m)
    (hr : h.release = (m : ℝ) / h.sampleRate) :
    h.releaseFrames = m ∧ ∃ gain, h.PlayedWith gain ∧
      (h.sustain.linear < gain (h.offFrame - 1) → 0 < gain (h.offFrame + h.releaseFrames - 1)) := by
  have hsr : (0 : ℝ) < h.sampleRate := by exact_mod_cast v.rate
  refine ⟨?_, h.gains, AdsrNote.played v, fun hl => (AdsrNote.slow v hs hm hr hl).2⟩
  unfold AdsrNote.releaseFrames stageFrames
  rw [hr, div_mul_cancel₀ _ hsr.ne', Nat.ceil_natCast]
  omega

example : (AdsrNote.simple 48000 0 1 ⟨1 / 2⟩ ((48 : Nat) / (48000 : Nat)) 1 512).Valid ∧
    (AdsrNote.simple 48000 0 1 ⟨1 / 2⟩ ((48 : Nat) / (48000 : Nat)) 1 512).gains
      ((AdsrNote.simple 48000 0 1 ⟨1 / 2⟩ ((48 : Nat) / (48000 : Nat)) 1 512).offFrame - 1) = 1 := by
  have v : (AdsrNote.simple 48000 0 1 ⟨1 / 2⟩ ((48 : Nat) / (48000 : Nat)) 1 512).Valid :=
    AdsrNote.simple_valid (by decide) (by norm_num) (by decide) (by decide) (by decide) (by decide) (by decide)
  refine ⟨v, AdsrNote.ended_decaying v rfl (by norm_num [AdsrNote.simple]) ?_⟩
  simp [AdsrNote.offFrame, AdsrNote.onFrame, AdsrNote.simple, AdsrBlock.totalFrames, AdsrBlock.ones, frameOf]

end Rawdio
