import Verif.Lemmas.Voice
import Verif.Lemmas.Events
import Verif.Props.Timestamp

/-! # Lemmas about the sampler -/

namespace Rawdio

variable {S : Type}

theorem fromSamples_asSamples (t u : Int) (k sr : Nat) (hsr : 0 < sr) :
    Timestamp.fromSamples (Timestamp.asSamples t sr + Timestamp.asSamples u sr * k) sr = t + u * k := by
  have hp : (sr : ℚ) ≠ 0 := by exact_mod_cast hsr.ne'
  have e : (Timestamp.asSamples t sr + Timestamp.asSamples u sr * k) / sr * Timestamp.one =
      ((t + u * k : Int) : ℚ) := by
    simp only [Timestamp.asSamples, Timestamp.asSeconds, Timestamp.one]
    push_cast
    field_simp
  unfold Timestamp.fromSamples Timestamp.fromSeconds
  rw [e, Timestamp.roundHalfEven_int]

theorem roundUsize_near {x : ℚ} {n : Nat} (h : |x - n| < 1 / 2) : roundUsize x = n := by
  rw [abs_lt] at h
  unfold roundUsize
  have : ⌊x + 1 / 2⌋ = (n : Int) := by
    rw [Int.floor_eq_iff]
    constructor
    · push_cast; linarith [h.1]
    · push_cast; linarith [h.2]
  rw [this]; simp

theorem roundUsize_mono {x y : ℚ} (h : x ≤ y) : roundUsize x ≤ roundUsize y := by
  unfold roundUsize
  exact Int.toNat_le_toNat (Int.floor_mono (by linarith))

theorem roundUsize_eq_zero {x : ℚ} (h : x < 1 / 2) : roundUsize x = 0 := by
  unfold roundUsize
  have : ⌊x + 1 / 2⌋ < 1 := by rw [Int.floor_lt]; push_cast; linarith
  omega

theorem roundUsize_le {x : ℚ} (hx : 0 ≤ x) : (roundUsize x : ℚ) ≤ x + 1 / 2 := by
  unfold roundUsize
  have h0 : 0 ≤ ⌊x + 1 / 2⌋ := Int.floor_nonneg.mpr (by linarith)
  have h1 := Int.floor_le (x + 1 / 2)
  have h2 : ((⌊x + 1 / 2⌋.toNat : Nat) : ℚ) = ((⌊x + 1 / 2⌋ : Int) : ℚ) := by
    have := Int.toNat_of_nonneg h0
    exact_mod_cast congrArg (fun z : Int => (z : ℚ)) this
  rw [h2]; exact h1

theorem roundUsize_samples (n sr : Nat) (hsr : 0 < sr) (hlt : sr < 2 ^ 32) :
    roundUsize (Timestamp.asSamples (Timestamp.fromSamples (n : ℚ) sr) sr) = n := by
  apply roundUsize_near
  refine lt_of_le_of_lt (Timestamp.C25_round_trip_error n sr hsr) ?_
  have : (sr : ℚ) < 2 ^ 32 := by exact_mod_cast hlt
  rw [div_lt_iff₀ (by positivity)]
  norm_num at *
  linarith

theorem asSamples_mono {t u : Int} (sr : Nat) (h : t ≤ u) :
    Timestamp.asSamples t sr ≤ Timestamp.asSamples u sr := by
  rw [EventProcessor.asSamples_eq, EventProcessor.asSamples_eq]
  apply div_le_div_of_nonneg_right _ (by norm_num)
  exact mul_le_mul_of_nonneg_right (by exact_mod_cast h) (Nat.cast_nonneg sr)

namespace Sampler

/-- What holds of every sampler in use. -/
structure Ok (s : Sampler S) : Prop where
  fade : 0 < s.fade.values.length
  rate : 0 < s.sampleRate
  rate' : s.sampleRate < 2 ^ 32
  voices : ∀ v ∈ s.voices, v.Ok s.fade

/-- The sampler without its voices. -/
structure SameRest (s t : Sampler S) : Prop where
  fade : t.fade = s.fade
  buffer : t.buffer = s.buffer
  events : t.events = s.events
  sampleRate : t.sampleRate = s.sampleRate
  loopPoints : t.loopPoints = s.loopPoints
  startPosition : t.startPosition = s.startPosition
  voiceCount : t.voices.length = s.voices.length

theorem SameRest.refl (s : Sampler S) : SameRest s s := ⟨rfl, rfl, rfl, rfl, rfl, rfl, rfl⟩

theorem SameRest.trans {s t u : Sampler S} (h1 : SameRest s t) (h2 : SameRest t u) : SameRest s u :=
  ⟨h2.fade.trans h1.fade, h2.buffer.trans h1.buffer, h2.events.trans h1.events,
    h2.sampleRate.trans h1.sampleRate, h2.loopPoints.trans h1.loopPoints,
    h2.startPosition.trans h1.startPosition, h2.voiceCount.trans h1.voiceCount⟩

theorem stop_same (s : Sampler S) : SameRest s s.stop := ⟨rfl, rfl, rfl, rfl, rfl, rfl, by simp [stop]⟩

theorem stop_ok {s : Sampler S} (h : s.Ok) : s.stop.Ok := by
  refine ⟨h.fade, h.rate, h.rate', ?_⟩
  intro v hv
  simp only [stop, List.mem_map] at hv
  obtain ⟨u, hu, rfl⟩ := hv
  exact Voice.stop_ok _ _ h.fade (h.voices u hu)

theorem takeVoice_same (s : Sampler S) (p : Nat) : SameRest s (s.takeVoice p) := by
  unfold takeVoice
  simp only
  split
  · exact ⟨rfl, rfl, rfl, rfl, rfl, rfl, by simp [stop]⟩
  · exact stop_same s

theorem takeVoice_position (s : Sampler S) (p : Nat) : (s.takeVoice p).position = s.position := by
  unfold takeVoice
  simp only
  split <;> rfl

theorem takeVoice_loops (s : Sampler S) (p : Nat) :
    (s.takeVoice p).completedLoops = s.completedLoops := by
  unfold takeVoice
  simp only
  split <;> rfl

theorem takeVoice_ok {s : Sampler S} (h : s.Ok) (p : Nat) : (s.takeVoice p).Ok := by
  have hs := stop_ok h
  unfold takeVoice
  simp only
  split
  · refine ⟨h.fade, h.rate, h.rate', ?_⟩
    intro v hv
    rcases List.mem_or_eq_of_mem_set hv with h1 | h1
    · exact hs.voices v h1
    · rw [h1]; exact Voice.start_ok _ _ h.fade
  · exact hs

theorem assignVoice_same (s : Sampler S) (p : Int) : SameRest s (s.assignVoice p) := by
  unfold assignVoice
  simp only
  split
  · exact SameRest.refl s
  · exact takeVoice_same s _

theorem assignVoice_position (s : Sampler S) (p : Int) : (s.assignVoice p).position = s.position := by
  unfold assignVoice
  simp only
  split
  · rfl
  · exact takeVoice_position s _

theorem assignVoice_loops (s : Sampler S) (p : Int) :
    (s.assignVoice p).completedLoops = s.completedLoops := by
  unfold assignVoice
  simp only
  split
  · rfl
  · exact takeVoice_loops s _

theorem assignVoice_ok {s : Sampler S} (h : s.Ok) (p : Int) : (s.assignVoice p).Ok := by
  unfold assignVoice
  simp only
  split
  · exact h
  · exact takeVoice_ok h _

theorem loopBack_same (s : Sampler S) (p : Int) : SameRest s (s.loopBack p) := by
  have := assignVoice_same { s with completedLoops := s.completedLoops + 1 } p
  exact ⟨this.fade, this.buffer, this.events, this.sampleRate, this.loopPoints, this.startPosition,
    this.voiceCount⟩

theorem finishSample_same (s : Sampler S) : SameRest s s.finishSample := by
  unfold finishSample
  split
  · exact loopBack_same s _
  · exact SameRest.refl s

theorem finishSample_position (s : Sampler S) : s.finishSample.position = s.position := by
  unfold finishSample
  split
  · exact assignVoice_position _ _
  · rfl

theorem finishSample_loops {s : Sampler S} (h : s.loopPoints.isSome) :
    s.finishSample.completedLoops = s.completedLoops + 1 := by
  unfold finishSample
  split
  · exact assignVoice_loops _ _
  · rename_i h'; rw [h'] at h; cases h

theorem finishSample_ok {s : Sampler S} (h : s.Ok) : s.finishSample.Ok := by
  unfold finishSample
  split
  · exact assignVoice_ok (s := { s with completedLoops := s.completedLoops + 1 })
      ⟨h.fade, h.rate, h.rate', h.voices⟩ _
  · exact h

theorem nextLoopPosition_some {s : Sampler S} (hsr : 0 < s.sampleRate) {a b : Int}
    (h : s.loopPoints = some (a, b)) :
    s.nextLoopPosition = b - s.startPosition + (b - a) * s.completedLoops := by
  unfold nextLoopPosition
  rw [h]
  exact fromSamples_asSamples _ _ _ _ hsr

theorem nextLoopPosition_none {s : Sampler S} (h : s.loopPoints = none) :
    s.nextLoopPosition = Timestamp.fromSamples (s.buffer.frames : ℚ) s.sampleRate := by
  unfold nextLoopPosition
  rw [h]

theorem finishSample_next {s : Sampler S} (hsr : 0 < s.sampleRate) {a b : Int}
    (h : s.loopPoints = some (a, b)) :
    s.finishSample.nextLoopPosition = s.nextLoopPosition + (b - a) := by
  have hs := finishSample_same s
  rw [nextLoopPosition_some hsr h, nextLoopPosition_some (by rw [hs.sampleRate]; exact hsr)
    (hs.loopPoints.trans h), finishSample_loops (by rw [h]; rfl), hs.startPosition]
  push_cast
  ring

theorem renderFrameCount_le (s : Sampler S) (r : Nat) : s.renderFrameCount r ≤ r := Nat.min_le_right _ _

/-- Nothing is rendered when the end of the sample has been reached. -/
theorem renderFrameCount_past (s : Sampler S) (r : Nat) (h : s.nextLoopPosition ≤ s.position) :
    s.renderFrameCount r = 0 := by
  unfold renderFrameCount
  have h1 : s.getRenderInterval r ≤ 0 := by
    unfold getRenderInterval
    simp only
    split <;> omega
  have h2 := asSamples_mono s.sampleRate h1
  have h3 : Timestamp.asSamples 0 s.sampleRate = 0 := by simp [Timestamp.asSamples, Timestamp.asSeconds]
  rw [roundUsize_eq_zero (by linarith)]
  simp

/-- Everything is rendered when the end of the sample is behind the part to render. -/
theorem renderFrameCount_all {s : Sampler S} (h : s.Ok) (r : Nat)
    (hr : s.position + Timestamp.fromSamples (r : ℚ) s.sampleRate < s.nextLoopPosition) :
    s.renderFrameCount r = r := by
  unfold renderFrameCount
  have h1 : s.getRenderInterval r = Timestamp.fromSamples (r : ℚ) s.sampleRate := by
    unfold getRenderInterval Timestamp.incrementedBySamples
    simp only
    rw [if_pos hr]
    omega
  rw [h1, roundUsize_samples r _ h.rate h.rate']
  simp

/-- Otherwise it is the rounded distance from the end of the sample that counts. -/
theorem renderFrameCount_end {s : Sampler S} (r : Nat)
    (hr : s.nextLoopPosition ≤ s.position + Timestamp.fromSamples (r : ℚ) s.sampleRate) :
    s.renderFrameCount r =
      min (roundUsize (Timestamp.asSamples (s.nextLoopPosition - s.position) s.sampleRate)) r := by
  unfold renderFrameCount getRenderInterval Timestamp.incrementedBySamples
  simp only
  rw [if_neg (by omega)]

/-- A second before the end of the sample something is rendered. -/
theorem renderFrameCount_pos {s : Sampler S} (h : s.Ok) (r : Nat) (hr : 0 < r)
    (hd : s.position + 2 ^ 32 ≤ s.nextLoopPosition) : 0 < s.renderFrameCount r := by
  rcases lt_or_ge (s.position + Timestamp.fromSamples (r : ℚ) s.sampleRate) s.nextLoopPosition with h1 | h1
  · rw [renderFrameCount_all h r h1]; exact hr
  · rw [renderFrameCount_end r h1]
    have h2 : (2 ^ 32 : Int) ≤ s.nextLoopPosition - s.position := by omega
    have h3 := asSamples_mono s.sampleRate h2
    have h4 : Timestamp.asSamples (2 ^ 32) s.sampleRate = s.sampleRate := by
      simp [Timestamp.asSamples, Timestamp.asSeconds, Timestamp.one]
    have h5 : (1 : ℚ) ≤ s.sampleRate := by exact_mod_cast h.rate
    have h6 := roundUsize_mono (show (1 : ℚ) ≤ _ by linarith)
    have h7 : roundUsize 1 = 1 := roundUsize_near (by norm_num)
    omega

section Render

variable [Add S] [Mul S] [One S]

theorem renderVoices_spec (src : Grid S) (fade : Fade S) (w : Window) (vs : List Voice) :
    ∀ out : Grid S, w.offset + w.count ≤ out.frames → (∀ v ∈ vs, v.Ok fade) →
    renderVoices src fade w vs out = .ok (vs.map (fun v => v.after fade w.count),
      out.changed w (mixVoices fade src vs)) := by
  induction vs with
  | nil =>
    intro out _ _
    simp only [renderVoices, List.map_nil]
    congr 2
    exact (Voice.changed_id out w).symm
  | cons v vs ih =>
    intro out hw hv
    rw [renderVoices, Voice.render_spec src fade w v out hw (hv v List.mem_cons_self)]
    simp only [bind, Except.bind]
    rw [ih _ (by exact hw) (fun u hu => hv u (List.mem_cons_of_mem _ hu))]
    simp only [List.map_cons]
    congr 2
    refine Grid.ext' rfl rfl fun c f => ?_
    simp only [Grid.changed, mixVoices, List.foldl_cons]
    split
    · rfl
    · rfl

/-- The sampler after `n` frames were rendered. -/
def advanced (s : Sampler S) (n : Nat) : Sampler S :=
  { s with
    voices := s.voices.map (fun v => v.after s.fade n)
    position := Timestamp.incrementedBySamples s.position n s.sampleRate }

theorem advanced_same (s : Sampler S) (n : Nat) : SameRest s (s.advanced n) :=
  ⟨rfl, rfl, rfl, rfl, rfl, rfl, by simp [advanced]⟩

omit [Add S] [Mul S] [One S] in
theorem advanced_ok {s : Sampler S} (h : s.Ok) (n : Nat) : (s.advanced n).Ok := by
  refine ⟨h.fade, h.rate, h.rate', ?_⟩
  intro v hv
  simp only [advanced, List.mem_map] at hv
  obtain ⟨u, hu, rfl⟩ := hv
  exact Voice.after_ok _ _ (h.voices u hu) n

/-- The output after `n` frames were rendered at frame `at`. -/
def mixed (s : Sampler S) (out : Grid S) (w : Window) : Grid S :=
  out.changed w (mixVoices s.fade s.buffer s.voices)

/-- One turn of the loop in which frames are rendered. -/
theorem processSample_step {w : Window} {fuel fp : Nat} {s : Sampler S} {out : Grid S} (hs : s.Ok)
    (hw : w.offset + w.count ≤ out.frames) (hfp : fp < w.count)
    (hn : s.renderFrameCount (w.count - fp) ≠ 0) :
    processSample w (fuel + 1) fp s out =
      processSample w fuel (fp + s.renderFrameCount (w.count - fp))
        (s.advanced (s.renderFrameCount (w.count - fp)))
        (s.mixed out ⟨w.offset + fp, s.renderFrameCount (w.count - fp)⟩) := by
  have hle := renderFrameCount_le s (w.count - fp)
  rw [processSample, if_pos hfp]
  simp only
  rw [if_neg (by intro h; exact hn h.1), if_neg hn]
  unfold processVoices
  rw [renderVoices_spec _ _ _ _ _ (by simp only; omega) hs.voices]
  rfl

theorem processSample_done {w : Window} {fuel fp : Nat} {s : Sampler S} {out : Grid S}
    (hfp : w.count ≤ fp) : processSample w fuel fp s out = .ok (s, out) := by
  cases fuel <;> (rw [processSample, if_neg (by omega)])

theorem processSample_loop {w : Window} {fuel fp : Nat} {s : Sampler S} {out : Grid S}
    (hfp : fp < w.count) (hn : s.renderFrameCount (w.count - fp) = 0) (hl : s.loopPoints.isSome) :
    processSample w (fuel + 1) fp s out = processSample w fuel fp s.finishSample out := by
  rw [processSample, if_pos hfp]
  simp only
  rw [if_pos ⟨hn, hl⟩]

theorem processSample_break {w : Window} {fuel fp : Nat} {s : Sampler S} {out : Grid S}
    (hfp : fp < w.count) (hn : s.renderFrameCount (w.count - fp) = 0) (hl : s.loopPoints = none) :
    processSample w (fuel + 1) fp s out = .ok (s, out) := by
  rw [processSample, if_pos hfp]
  simp only
  rw [if_neg (by rw [hl]; simp), if_pos hn]

theorem processSample_mono (w : Window) (fuel : Nat) : ∀ (fp : Nat) (s : Sampler S) (out : Grid S)
    (r : Sampler S × Grid S), processSample w fuel fp s out = .ok r →
    ∀ more, processSample w (fuel + more) fp s out = .ok r := by
  induction fuel with
  | zero =>
    intro fp s out r h more
    rw [processSample] at h
    split at h
    · cases h
    · rw [processSample_done (by omega), ← h]
  | succ fuel ih =>
    intro fp s out r h more
    have e : fuel + 1 + more = (fuel + more) + 1 := by omega
    rw [e]
    rw [processSample] at h ⊢
    split
    · rename_i h1
      rw [if_pos h1] at h
      simp only at h ⊢
      split
      · rename_i h2
        rw [if_pos h2] at h
        exact ih _ _ _ _ h more
      · rename_i h2
        rw [if_neg h2] at h
        split
        · rename_i h3
          rw [if_pos h3] at h
          exact h
        · rename_i h3
          rw [if_neg h3] at h
          cases hp : processVoices s out ⟨w.offset + fp, s.renderFrameCount (w.count - fp)⟩ with
          | error e => rw [hp] at h; cases h
          | ok q =>
            rw [hp] at h
            exact ih _ _ _ _ h more
    · rename_i h1
      rw [if_neg h1] at h
      exact h

/-- Loop points of which the end is after the start. -/
def Proper (l : Option (Int × Int)) : Prop := ∀ a b, l = some (a, b) → a < b

/-- With proper loop points the sampler comes to the end of every part of a block. -/
theorem processSample_returns (w : Window) : ∀ (m d fp : Nat) (s : Sampler S) (out : Grid S), s.Ok →
    Proper s.loopPoints → w.offset + w.count ≤ out.frames → w.count - fp ≤ m →
    (s.position + 2 ^ 32 - s.nextLoopPosition).toNat ≤ d →
    ∃ fuel t out', processSample w fuel fp s out = .ok (t, out') ∧ t.Ok ∧ SameRest s t ∧
      out'.channels = out.channels ∧ out'.frames = out.frames := by
  intro m
  induction m with
  | zero =>
    intro d fp s out hs _ hw hm _
    exact ⟨0, s, out, processSample_done (by omega), hs, SameRest.refl s, rfl, rfl⟩
  | succ m ihm =>
    intro d
    induction d with
    | zero =>
      intro fp s out hs hp hw hm hd
      by_cases hfp : fp < w.count
      · have hn := renderFrameCount_pos hs (w.count - fp) (by omega) (by omega)
        obtain ⟨fuel, t, out', h1, h2, h3, h4, h5⟩ := ihm _ (fp + s.renderFrameCount (w.count - fp))
          (s.advanced (s.renderFrameCount (w.count - fp)))
          (s.mixed out ⟨w.offset + fp, s.renderFrameCount (w.count - fp)⟩) (advanced_ok hs _) hp
          (by exact hw) (by omega) (le_refl _)
        exact ⟨fuel + 1, t, out', (processSample_step hs hw hfp (by omega)).trans h1, h2,
          (advanced_same s _).trans h3, h4, h5⟩
      · exact ⟨0, s, out, processSample_done (by omega), hs, SameRest.refl s, rfl, rfl⟩
    | succ d ihd =>
      intro fp s out hs hp hw hm hd
      by_cases hfp : fp < w.count
      · by_cases hn : s.renderFrameCount (w.count - fp) = 0
        · cases hl : s.loopPoints with
          | none => exact ⟨1, s, out, processSample_break hfp hn hl, hs, SameRest.refl s, rfl, rfl⟩
          | some ab =>
            obtain ⟨a, b⟩ := ab
            have hab := hp a b hl
            have hpos : ¬ s.position + 2 ^ 32 ≤ s.nextLoopPosition := fun h => by
              have := renderFrameCount_pos hs (w.count - fp) (by omega) h
              omega
            have hnext := finishSample_next hs.rate hl
            obtain ⟨fuel, t, out', h1, h2, h3, h4, h5⟩ := ihd fp s.finishSample out (finishSample_ok hs)
              (by rw [(finishSample_same s).loopPoints]; exact hp) hw hm
              (by rw [finishSample_position, hnext]; omega)
            exact ⟨fuel + 1, t, out', (processSample_loop hfp hn (by rw [hl]; rfl)).trans h1, h2,
              (finishSample_same s).trans h3, h4, h5⟩
        · obtain ⟨fuel, t, out', h1, h2, h3, h4, h5⟩ := ihm _ (fp + s.renderFrameCount (w.count - fp))
            (s.advanced (s.renderFrameCount (w.count - fp)))
            (s.mixed out ⟨w.offset + fp, s.renderFrameCount (w.count - fp)⟩) (advanced_ok hs _) hp
            (by exact hw) (by omega) (le_refl _)
          exact ⟨fuel + 1, t, out', (processSample_step hs hw hfp hn).trans h1, h2,
            (advanced_same s _).trans h3, h4, h5⟩
      · exact ⟨0, s, out, processSample_done (by omega), hs, SameRest.refl s, rfl, rfl⟩

/-- With loop points of which the end is not after the start the loop does not end once the end of the
loop has been reached. -/
theorem processSample_hangs (w : Window) (fuel : Nat) : ∀ (fp : Nat) (s : Sampler S) (out : Grid S)
    (a b : Int), 0 < s.sampleRate → s.loopPoints = some (a, b) → b ≤ a →
    s.nextLoopPosition ≤ s.position → fp < w.count →
    processSample w fuel fp s out = .error .diverge := by
  induction fuel with
  | zero => intro fp s out a b _ _ _ _ h; rw [processSample, if_pos h]
  | succ fuel ih =>
    intro fp s out a b hsr hl hab hp hfp
    rw [processSample_loop hfp (renderFrameCount_past s _ hp) (by rw [hl]; rfl)]
    refine ih fp _ out a b ?_ ((finishSample_same s).loopPoints.trans hl) hab ?_ hfp
    · rw [(finishSample_same s).sampleRate]; exact hsr
    · rw [finishSample_position, finishSample_next hsr hl]; omega

end Render
end Sampler
end Rawdio
