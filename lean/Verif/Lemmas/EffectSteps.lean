import Verif.Lemmas.BiquadRun
import Verif.Lemmas.CompressorTrack
import Verif.Lemmas.Convolution
import Verif.Lemmas.Effects
import Verif.Lemmas.Oscillator
import Verif.Lemmas.Pan
import Verif.Lemmas.Unbounded
import Verif.Props.Gain
import Verif.Props.Waveshaper

/-! Helper lemmas: what each effect does to a block. -/

namespace Rawdio

namespace Oscillator

theorem wrap_mono {f : Nat} : ∀ {x p : ℝ}, wrap f x = .ok p → ∀ g, wrap (f + g) x = .ok p := by
  induction f with
  | zero => intro x p h; cases h
  | succ f ih =>
    intro x p h g
    rw [Nat.succ_add, wrap]
    rw [wrap] at h
    by_cases hx : x > 1
    · rw [if_pos hx] at h ⊢
      exact ih h g
    · rw [if_neg hx] at h ⊢
      exact h

theorem fill_mono {f sr : Nat} (g : Nat) : ∀ {data freqs : List ℝ} {o : Oscillator} {r : Oscillator × List ℝ},
    fill f sr o data freqs = .ok r → fill (f + g) sr o data freqs = .ok r := by
  intro data
  induction data with
  | nil => intro freqs o r h; cases freqs <;> exact h
  | cons d data ih =>
    intro freqs o r h
    cases freqs with
    | nil => exact h
    | cons q freqs =>
      rw [fill] at h ⊢
      unfold incrementPhase at h ⊢
      cases hw : wrap f (o.phase + q / sr) with
      | error e => rw [hw] at h; cases h
      | ok p =>
        rw [hw] at h
        rw [wrap_mono hw g]
        simp only [bind, Except.bind, pure, Except.pure] at h ⊢
        cases hv : ({ o with phase := p } : Oscillator).getValue with
        | error e => rw [hv] at h; cases h
        | ok val =>
          rw [hv] at h
          simp only at h ⊢
          cases hf : fill f sr ({ o with phase := p } : Oscillator) data freqs with
          | error e => rw [hf] at h; cases h
          | ok q =>
            rw [hf] at h
            rw [ih hf]
            exact h

theorem processAudio_mono {isZero isOne : ℝ → Bool} {al : Nat → Nat × Nat} {f : Nat} {o : Oscillator}
    {freqs gain : List ℝ} {output : Buf ℝ} {r : Oscillator × Buf ℝ} (g : Nat)
    (h : o.processAudio isZero isOne al f freqs gain output = .ok r) :
    o.processAudio isZero isOne al (f + g) freqs gain output = .ok r := by
  unfold processAudio at h ⊢
  cases hd : output.channelData (Loc.ofChannel 0) with
  | error e => rw [hd] at h; cases h
  | ok data =>
    rw [hd] at h
    simp only [bind, Except.bind] at h ⊢
    cases hf : fill f output.sampleRate o data freqs with
    | error e => rw [hf] at h; cases h
    | ok q =>
      rw [hf] at h
      rw [fill_mono g hf]
      exact h

theorem cycles_agree {a b : ℕ → ℝ} {sr t : Nat} (h : ∀ i < t, a i = b i) : cycles a sr t = cycles b sr t :=
  Finset.sum_congr rfl fun i hi => by rw [h i (Finset.mem_range.mp hi)]

end Oscillator

namespace Biquad

theorem response_agree {cs : ℕ → Coefficients} {x y : ℕ → ℝ} {n : ℕ} (h : ∀ i ≤ n, x i = y i) :
    response cs x n = response cs y n := by
  induction n using Nat.strong_induction_on with
  | _ n ih =>
    match n with
    | 0 => rw [response, response, h 0 le_rfl]
    | 1 =>
      simp only [response, h 0 (by omega), h 1 le_rfl]
    | n + 2 =>
      rw [response, response, h n (by omega), h (n + 1) (by omega), h (n + 2) le_rfl,
        ih n (by omega) (fun i hi => h i (by omega)), ih (n + 1) (by omega) (fun i hi => h i (by omega))]

end Biquad

namespace Buf

variable {S T U : Type}

theorem mapSamples_channels (g : S → T) (b : Buf S) : (b.mapSamples g).channelCount = b.channelCount := by
  cases b <;> rfl

theorem mapSamples_frames (g : S → T) (b : Buf S) : (b.mapSamples g).frameCount = b.frameCount := by
  cases b <;> rfl

theorem mapSamples_rate (g : S → T) (b : Buf S) : (b.mapSamples g).sampleRate = b.sampleRate := by
  induction b with
  | owned => rfl
  | slice p r m ih => exact ih

theorem mapSamples_sample (g : S → T) (b : Buf S) : ∀ c f, (b.mapSamples g).sample? c f = (b.sample? c f).map g := by
  induction b with
  | owned data cc fc r =>
    intro c f
    simp only [mapSamples, sample?]
    split
    · rw [List.getElem?_map]
    · rfl
  | slice p r m ih =>
    intro c f
    simp only [mapSamples, sample?]
    split
    · exact ih _ _
    · rfl

theorem WF.mapSamples (g : S → T) {b : Buf S} (h : b.WF) : (b.mapSamples g).WF := by
  induction b with
  | owned data cc fc r => simpa [WF, Buf.mapSamples] using h
  | slice p r m ih =>
    obtain ⟨h1, h2, h3⟩ := h
    exact ⟨ih h1, by rw [mapSamples_channels]; exact h2, by rw [mapSamples_frames]; exact h3⟩

theorem Writable.mapSamples (g : S → T) {b : Buf S} (h : b.Writable) : (b.mapSamples g).Writable := by
  induction b with
  | owned => trivial
  | slice p r m ih => exact ⟨h.1, ih h.2⟩

theorem SameShape.mapSamples_back {g : S → T} (k : T → S) {b : Buf S} : ∀ {o : Buf T}, (b.mapSamples g).SameShape o →
    b.SameShape (o.mapSamples k) := by
  induction b with
  | owned data c f r =>
    intro o h
    cases o with
    | owned => exact h
    | slice => exact h.elim
  | slice p r m ih =>
    intro o h
    cases o with
    | owned => exact h.elim
    | slice p' r' m' => exact ⟨ih h.1, h.2⟩

end Buf

namespace Waveshaper

theorem polygonAt_on (x : Nat → ℝ) (n : Nat) (p : ℝ) : OnPolygon x n p (polygonAt x n p) := by
  unfold polygonAt
  split
  · rename_i h; exact .inl ⟨h, rfl⟩
  · rename_i h0
    split
    · rename_i h; exact .inr (.inl ⟨h, rfl⟩)
    · rename_i h1
      have h2 := Nat.floor_le (not_le.mp h0).le
      have h3 := Nat.lt_floor_add_one p
      refine .inr (.inr ⟨⌊p⌋₊, p - ⌊p⌋₊, ?_, by linarith, by linarith, by ring, rfl⟩)
      have : ((⌊p⌋₊ + 1 : ℕ) : ℝ) < n := by push_cast; linarith [not_le.mp h1]
      exact_mod_cast this

theorem outSample_eq (curve : ℝ → ℝ) (overdrive mix x : ℝ) (h : -10 ≤ overdrive) :
    outSample ((List.range 511).map fun i => some (corners curve i)) overdrive mix (some x) =
      some (shapedSample curve overdrive mix x) := by
  obtain ⟨y, h1, h2⟩ := shaped_polygon (corners curve) 511 (by norm_num) _ rfl (x * drive overdrive)
  have h3 : ((511 : Nat) : ℝ) - 1 = 510 := by norm_num
  rw [h3] at h2
  have h4 := h2.unique (by norm_num) (polygonAt_on _ _ _)
  unfold outSample
  rw [overdriveGain_eq _ h, Option.map_some, h1, h4]
  obtain ⟨P, hP⟩ : ∃ P, P = polygonAt (corners curve) 511 ((x * drive overdrive + 1) / 2 * 510) := ⟨_, rfl⟩
  have hP' : polygonAt (fun i => curve (-1 + 2 * (i : ℝ) / 510)) 511 ((x * drive overdrive + 1) / 2 * 510) = P := by
    rw [hP]; rfl
  rw [← hP, shapedSample, hP']
  have : mixSample (some x) (Option.map (· / drive overdrive) (some P)) mix =
      some (P / drive overdrive * mix + x * (1 - mix)) := rfl
  rw [this]
  exact congrArg some (by ring)

end Waveshaper

namespace Fx

variable {N : Platform} {sr mf : Nat} {v : String → ℕ → ℝ} {x : ℕ → ℕ → ℝ} {total : Nat}

theorem gain_total (hz : ∀ x, N.isZero x = true → x = 0) (ho : ∀ x, N.isOne x = true → x = 1) (ch : Nat) :
    Total N sr mf ch ch ["gain"] v x (fun c F => x c F * v "gain" F) (fun _ fx => fx = .gain) := by
  intro n m t fx value input output hm _ hi hv hb
  subst hi
  obtain ⟨l, l1, l2, l3⟩ := hv "gain" (by simp)
  obtain ⟨b', e1, e2, e3⟩ := Gain.C80_processor hz ho (N.gains t) l input output
    ⟨hb.inWF, hb.outWF, hb.writable, by rw [hb.outFrames]; exact hm, by rw [hb.outFrames, hb.inFrames]⟩
    (by rw [hb.outFrames]; exact l2)
  refine ⟨.gain, b', ?_, rfl, e2, ?_⟩
  · simp only [processAudio, l1, bind, Except.bind, e1]; rfl
  intro c hc f hf
  obtain ⟨a, g, g1, g2, g3⟩ := e3 c f (by rw [hb.outChannels]; exact hc) (by rw [hb.outFrames]; exact hf)
  rw [if_pos (by rw [hb.inChannels]; exact hc), hb.samples c hc f hf] at g2
  rw [l3 f hf] at g1
  cases g1; cases g2
  exact g3

theorem pan_total (ch : Nat) (hch : 2 ≤ ch) :
    Total N sr mf ch 2 ["pan"] v x (fun c F => x c F * min (1 + (if c = 0 then - v "pan" F else v "pan" F)) 1)
      (fun _ fx => fx = .pan) := by
  intro n m t fx value input output hm _ hi hv hb
  subst hi
  obtain ⟨l, l1, l2, l3⟩ := hv "pan" (by simp)
  have hget : ∀ c < ch, ∀ f < output.frameCount, input.getSample ⟨c, f⟩ = .ok (x c (n + f)) := by
    intro c hc f hf
    rw [hb.outFrames] at hf
    obtain ⟨u, u1, u2⟩ := Buf.getSample_eq input hb.inWF c f (by rw [hb.inChannels]; exact hc)
      (by rw [hb.inFrames]; exact hf)
    rw [hb.samples c hc f hf] at u1
    cases u1
    exact u2
  obtain ⟨out, e1, e2, _, _, e5⟩ := Pan.frames_ok l input output hb.outWF hb.writable (by rw [hb.outChannels])
    (by rw [hb.outFrames, l2]) _ _ (hget 0 (by omega)) (hget 1 (by omega)) _ le_rfl
  have e1' : (List.range output.frameCount).foldlM
      (fun output frame => Pan.processFrame l input output frame) output = .ok out := e1
  refine ⟨.pan, out, ?_, rfl, e2, ?_⟩
  · simp only [processAudio, l1, Pan.processAudio, bind, Except.bind]
    rw [e1']
    rfl
  intro c hc f hf
  rw [e5 c f (by rw [hb.outChannels]; exact hc) (by rw [hb.outFrames]; exact hf), hb.outFrames,
    List.getD_eq_getElem?_getD, l3 f hf, Option.getD_some]
  have : c = 0 ∨ c = 1 := by omega
  rcases this with rfl | rfl
  · dsimp only
    rw [if_pos ⟨hf, rfl⟩, if_pos rfl, Pan.leftGain, sub_eq_add_neg]
  · dsimp only
    rw [if_neg (by simp), if_pos ⟨hf, rfl⟩, if_neg (by simp), Pan.rightGain]

theorem biquad_total (hz : ∀ x, N.isZero x = true → x = 0) (ho : ∀ x, N.isOne x = true → x = 1) (ch : Nat)
    (type : Biquad.FilterType) :
    Total N sr mf ch ch ["frequency", "q", "shelf-gain", "gain"] v x
      (fun c F => Biquad.response
        (fun t => Biquad.calculate type ⟨v "frequency" t, v "q" t, v "shelf-gain" t⟩ sr) (x c) F * v "gain" F)
      (fun n fx => ∃ p, fx = .biquad p ∧ Biquad.AtTime type sr ch
        ⟨x, fun t => ⟨v "frequency" t, v "q" t, v "shelf-gain" t⟩, v "gain"⟩ n p) := by
  rintro n m t fx value input output hm _ ⟨p, rfl, hp⟩ hv hb
  obtain ⟨l1, a1, b1, c1⟩ := hv "frequency" (by simp)
  obtain ⟨l2, a2, b2, c2⟩ := hv "q" (by simp)
  obtain ⟨l3, a3, b3, c3⟩ := hv "shelf-gain" (by simp)
  obtain ⟨l4, a4, b4, c4⟩ := hv "gain" (by simp)
  obtain ⟨p', o', e1, e2, e3, e4⟩ := Biquad.block_ok N.isZero N.isOne hz ho type sr ch _ n p hp
    ⟨⟨l1, l2, l3, l4⟩, input, output, N.gains t⟩
    ⟨hb.inWF, hb.outWF, hb.writable, hb.inChannels, hb.outChannels, by rw [hb.inFrames, hb.outFrames],
      by rw [hb.outFrames]; exact b4, by
        intro f hf
        simp only at hf
        rw [hb.outFrames] at hf
        exact ⟨fun c hc => hb.samples c hc f hf, c1 f hf, c2 f hf, c3 f hf, c4 f hf⟩⟩
  simp only at e1 e2 e3 e4
  rw [hb.outFrames] at e2 e4
  refine ⟨.biquad p', o', ?_, ⟨p', rfl, e2⟩, e3, e4⟩
  simp only [processAudio, a1, a2, a3, a4, bind, Except.bind, e1]
  rfl

theorem convolution_total (ch : Nat) (h : ℕ → ℕ → ℝ) (k maximum : Nat) :
    Total N sr mf ch ch ["wet", "dry"] v x
      (fun c F => x c F * v "dry" F + Convolver.convolved (h c) k (x c) F * v "wet" F)
      (fun n fx => ∃ p, fx = .convolution p ∧ Convolver.AtTime ch h k x maximum n p) := by
  rintro n m t fx value input output hm _ ⟨p, rfl, hp⟩ hv hb
  obtain ⟨l1, a1, b1, c1⟩ := hv "wet" (by simp)
  obtain ⟨l2, a2, b2, c2⟩ := hv "dry" (by simp)
  obtain ⟨p', o', e1, e2, e3, e4⟩ := Convolver.process_ok ch h k ⟨x, v "wet", v "dry"⟩ maximum n
    ⟨input, output, l1, l2, N.mixes t⟩
    ⟨hb.inWF, hb.outWF, hb.writable, hb.inChannels, hb.outChannels, by rw [hb.inFrames, hb.outFrames],
      by rw [hb.outFrames]; exact b1, by rw [hb.outFrames]; exact b2, by
        intro f hf
        simp only at hf
        rw [hb.outFrames] at hf
        exact ⟨fun c hc => hb.samples c hc f hf, c1 f hf, c2 f hf⟩⟩ p hp
  simp only at e1 e2 e3 e4
  rw [hb.outFrames] at e2 e4
  refine ⟨.convolution p', o', ?_, ⟨p', rfl, e2⟩, e3, ?_⟩
  · simp only [processAudio, a1, a2, bind, Except.bind, e1]; rfl
  intro c hc f hf
  rw [e4 c hc f hf, hb.silent c hc f hf, Option.map_some, zero_add]

theorem waveshaper_runs (hsr : 0 < sr) (ch : Nat) (curve : ℝ → ℝ) :
    ∀ n m t fx value input output, 0 < m → m ≤ mf →
    (∃ w, fx = .waveshaper w ∧ w.Ok sr mf ∧
      w.transfer = (List.range 511).map (fun i => some (Waveshaper.corners curve i))) →
    (∀ name ∈ ["overdrive", "mix"], ∃ l, value name = .ok l ∧ Shows l (v name) n m) →
    Frames sr ch ch x n m input output →
    ∃ fx' o, processAudio N t value input output fx = .ok (fx', o) ∧ (∃ w, fx' = .waveshaper w ∧ w.Ok sr mf ∧
      w.transfer = (List.range 511).map (fun i => some (Waveshaper.corners curve i))) ∧ output.SameShape o ∧
      ∀ c < ch, ∀ f < m, -10 ≤ v "overdrive" (n + f) →
        o.sample? c f = some (shapedSample curve (v "overdrive" (n + f)) (v "mix" (n + f)) (x c (n + f))) := by
  rintro n m t fx value input output hm hmf ⟨w, rfl, hw, hw'⟩ hv hb
  obtain ⟨l1, a1, b1, c1⟩ := hv "overdrive" (by simp)
  obtain ⟨l2, a2, b2, c2⟩ := hv "mix" (by simp)
  obtain ⟨w', out, e1, e2, e3, e4, e5, e6, e7⟩ := Waveshaper.processAudio_ok hw hsr
    (hb.inWF.mapSamples some) (hb.outWF.mapSamples some) (hb.writable.mapSamples some) l1 l2
    (by rw [Buf.mapSamples_channels, Buf.mapSamples_channels, hb.inChannels, hb.outChannels])
    (by rw [Buf.mapSamples_frames, Buf.mapSamples_frames, hb.inFrames, hb.outFrames])
    (by rw [Buf.mapSamples_frames, hb.outFrames]; exact hm) (by rw [Buf.mapSamples_frames, hb.outFrames]; exact hmf)
    (by rw [Buf.mapSamples_rate, hb.rate]) (by rw [Buf.mapSamples_frames, hb.outFrames]; exact b1)
    (by rw [Buf.mapSamples_frames, hb.outFrames]; exact b2)
  refine ⟨.waveshaper w', _, ?_, ⟨w', rfl, e2, e3.trans hw'⟩, e4.mapSamples_back fun x => x.getD 0, ?_⟩
  · simp only [processAudio, a1, a2, bind, Except.bind, e1]
    rfl
  intro c hc f hf h0
  have := e7 c f (by rw [Buf.mapSamples_channels, hb.outChannels]; exact hc)
    (by rw [Buf.mapSamples_frames, hb.outFrames]; exact hf)
  rw [Buf.mapSamples_sample, this, Buf.mapSamples_sample, hb.samples c hc f hf, hw']
  rw [List.getD_eq_getElem?_getD, List.getD_eq_getElem?_getD, c1 f hf, c2 f hf]
  simp only [Option.map_some, Option.getD_some]
  rw [Waveshaper.outSample_eq curve _ _ _ h0]
  rfl

theorem compressor_runs (hz : ∀ x, N.isZero x = true → x = 0) (ho : ∀ x, N.isOne x = true → x = 1) (hsr : 0 < sr)
    (ch : Nat) :
    ∀ n m t fx value input output, 0 < m → m ≤ mf →
    (∃ k, fx = .compressor k ∧ Compressor.AtTime ch sr mf (v "attack") (v "release") x n k) →
    (∀ name ∈ ["attack", "release", "ratio", "threshold", "knee", "wet", "dry"], ∃ l, value name = .ok l ∧
      Shows l (v name) n m) →
    Frames sr ch ch x n m input output →
    ∃ fx' o, processAudio N t value input output fx = .ok (fx', o) ∧
      (∃ k, fx' = .compressor k ∧ Compressor.AtTime ch sr mf (v "attack") (v "release") x (n + m) k) ∧
      output.SameShape o ∧ ∀ c < ch, ∀ f < m, ¬ (v "knee" (n + f) = 0 ∧
        Compressor.loudness sr ch (v "attack") (v "release") x (n + f) = v "threshold" (n + f)) →
        o.sample? c f = some (x c (n + f) * (Compressor.reduction
          (Compressor.loudness sr ch (v "attack") (v "release") x (n + f)) (v "knee" (n + f)) (v "threshold" (n + f))
          (v "ratio" (n + f)) * v "wet" (n + f) + v "dry" (n + f))) := by
  rintro n m t fx value input output hm hmf ⟨k, rfl, hk⟩ hv hb
  obtain ⟨l1, a1, b1, c1⟩ := hv "attack" (by simp)
  obtain ⟨l2, a2, b2, c2⟩ := hv "release" (by simp)
  obtain ⟨l3, a3, b3, c3⟩ := hv "ratio" (by simp)
  obtain ⟨l4, a4, b4, c4⟩ := hv "threshold" (by simp)
  obtain ⟨l5, a5, b5, c5⟩ := hv "knee" (by simp)
  obtain ⟨l6, a6, b6, c6⟩ := hv "wet" (by simp)
  obtain ⟨l7, a7, b7, c7⟩ := hv "dry" (by simp)
  have hd : ∀ {l : List ℝ} {w : ℕ → ℝ}, (∀ f < m, l[f]? = some (w (n + f))) → ∀ f < m, l.getD f 0 = w (n + f) := by
    intro l w h f hf
    rw [List.getD_eq_getElem?_getD, h f hf, Option.getD_some]
  obtain ⟨k', out, e1, e2, e3, e4, e5⟩ := Compressor.processAudio_at hz ho hsr hk
    ⟨fun f => l1.getD f 0, fun f => l2.getD f 0, fun f => l3.getD f 0, fun f => l4.getD f 0, fun f => l5.getD f 0,
      fun f => l6.getD f 0, fun f => l7.getD f 0⟩
    ⟨input.channelCount, input.frameCount, fun c f => (input.view c f).getD 0⟩ hb.inChannels hb.inFrames hmf (by
      intro c hc f hf
      simp only
      obtain ⟨u, u1, u2⟩ := Buf.getSample_eq input hb.inWF c f (by rw [hb.inChannels]; exact hc)
        (by rw [hb.inFrames]; exact hf)
      rw [hb.samples c hc f hf] at u1
      cases u1
      rw [Buf.view, if_pos ⟨by rw [hb.inChannels]; exact hc, by rw [hb.inFrames]; exact hf⟩, u2]
      rfl) (hd c1) (hd c2)
  obtain ⟨data, hdata⟩ := hb.plain
  refine ⟨.compressor k', _, ?_, ⟨k', rfl, e2⟩, (?_ : output.SameShape (buffer output.channelCount output.frameCount
    output.sampleRate out.val)), ?_⟩
  · simp only [processAudio, a1, a2, a3, a4, a5, a6, a7, bind, Except.bind, e1]
    rfl
  · rw [hdata]
    exact ⟨rfl, rfl, rfl⟩
  intro c hc f hf hne
  rw [buffer_sample (by rw [hb.outChannels]; exact hc) (by rw [hb.outFrames]; exact hf)]
  have hg := Compressor.reduction_eq (l := ⟨∑ c ∈ Finset.range ch,
    Compressor.levelAfter sr (v "attack") (v "release") (x c) (n + f + 1) / ch⟩) (knee := v "knee" (n + f))
    (threshold := v "threshold" (n + f)) (ratio := v "ratio" (n + f)) hne
  rw [e5 c hc f hf _ (by simp only; rw [hd c5 f hf, hd c4 f hf, hd c3 f hf]; exact hg)]
  simp only [Option.getD_some]
  rw [hd c6 f hf, hd c7 f hf]
  congr 1
  show _ * Compressor.reduction (Compressor.loudness sr ch (v "attack") (v "release") x (n + f)) _ _ _ * _ + _ = _
  ring

theorem oscillator_steps (hz : ∀ x, N.isZero x = true → x = 0) (ho : ∀ x, N.isOne x = true → x = 1) (ch : Nat)
    (hch : 0 < ch) (hsr : 0 < sr) (table : List ℝ) (ht : 0 < table.length) (h0 : table.getD 0 0 = 0)
    (hv0 : ∀ F < total, 0 < v "frequency" F) :
    Steps N sr mf 0 ch ["frequency", "gain"] v x
      (fun _ F => Oscillator.tableAt table (Oscillator.cycles (v "frequency") sr (F + 1)) * v "gain" F) total
      (fun n fx => ∃ o, fx = .oscillator o ∧ o.wavetable = table ∧
        Oscillator.AtCycle (Oscillator.cycles (v "frequency") sr n) o) := by
  rintro n m t fx value input output fx' o hm _ hn ⟨p, rfl, hp, hc⟩ hv hb hr
  obtain ⟨l1, a1, b1, c1⟩ := hv "frequency" (by simp)
  obtain ⟨l2, a2, b2, c2⟩ := hv "gain" (by simp)
  simp only [processAudio, a1, a2, bind, Except.bind] at hr
  obtain ⟨w, hw⟩ : ∃ w : ℕ → ℝ, w = fun t => if t < total then v "frequency" t else 1 := ⟨_, rfl⟩
  have hw1 : ∀ t < total, w t = v "frequency" t := fun t ht => by rw [hw]; simp only; rw [if_pos ht]
  have hsr' : (0 : ℝ) < sr := by exact_mod_cast hsr
  have hwp : ∀ t, 0 < w t := by
    intro t
    rw [hw]
    simp only
    split
    · exact hv0 t (by assumption)
    · norm_num
  have hwb : ∃ B : ℝ, ∀ t, w t ≤ B := by
    refine ⟨1 + ∑ t ∈ Finset.range total, w t, ?_⟩
    intro t
    have hs : 0 ≤ ∑ t ∈ Finset.range total, w t := Finset.sum_nonneg fun i _ => (hwp i).le
    by_cases htt : t < total
    · have := Finset.single_le_sum (f := w) (fun i _ => (hwp i).le) (Finset.mem_range.mpr htt)
      linarith
    · have : w t = 1 := by rw [hw]; simp only; rw [if_neg htt]
      rw [this]; linarith
  obtain ⟨B, hB⟩ := hwb
  obtain ⟨F, hF⟩ := exists_nat_gt (B / sr + 1)
  cases hu : unbounded fun fuel => p.processAudio N.isZero N.isOne (N.gains t) fuel l1 l2 output with
  | error e => rw [hu] at hr; cases hr
  | ok r =>
    rw [hu] at hr
    cases hr
    obtain ⟨f, hf⟩ := unbounded_ok hu
    have hf' := Oscillator.processAudio_mono F hf
    have hcyc : ∀ t ≤ total, Oscillator.cycles w sr t = Oscillator.cycles (v "frequency") sr t :=
      fun t ht => Oscillator.cycles_agree fun i hi => hw1 i (by omega)
    have key := Oscillator.block_cases N.isZero N.isOne hz ho (f + F) sr w (v "gain")
      (fun t => div_pos (hwp t) hsr') (fun t => by
        have h1 : w t / sr ≤ B / sr := div_le_div_of_nonneg_right (hB t) hsr'.le
        have h2 : (0 : ℝ) ≤ f := Nat.cast_nonneg f
        push_cast
        linarith) n p (by rw [hcyc n (by omega)]; exact hc) (by rw [hp]; exact ht)
      ⟨l1, l2, output, N.gains t⟩
      ⟨hb.outWF, hb.writable, by rw [hb.outChannels]; exact hch, hb.rate, by rw [hb.outFrames]; exact b1,
        by rw [hb.outFrames]; exact b2, by
          intro f hf
          simp only at hf
          rw [hb.outFrames] at hf
          exact ⟨by rw [hw1 _ (by omega)]; exact c1 f hf, c2 f hf⟩⟩
    simp only [hb.outFrames, hb.outChannels] at key
    by_cases hwhole : ∃ f < m, Oscillator.Whole (Oscillator.cycles w sr (n + f + 1))
    · rw [key.1 hwhole] at hf'
      cases hf'
    · obtain ⟨o', out, e1, e2, e3, e4, e5⟩ := key.2 fun f hf hwf => hwhole ⟨f, hf, hwf⟩
      rw [e1] at hf'
      cases hf'
      refine ⟨⟨o', rfl, e3.trans hp, ?_⟩, e4, ?_⟩
      · rw [← hcyc (n + m) hn]; exact e2
      · intro c hc f hf
        rw [e5 f hf c hc, hp, Oscillator.rawAt_eq _ _ ht h0, hcyc _ (by omega)]

/-- The parameters of a new node. -/
theorem new_gives (es : List (ChainEvent ParameterRequest)) (i : Id) (k : FxKind) (defaults : List (String × ℝ))
    (names : List String)
    (hd : ∀ name ∈ names, (FxKind.parameters defaults).get? name = some (.new realArith (k.default name))) :
    Gives sr i names (k.track sr es i) 0 es (FxKind.parameters defaults) := by
  intro name hname
  refine ⟨_, hd name hname, track_length .., ?_⟩
  intro f hf
  rw [FxKind.track, Nat.zero_add, List.getD_eq_getElem?_getD,
    List.getElem?_eq_getElem (by rw [track_length]; exact hf)]
  rfl

/-- What comes out of a node. -/
theorem node_heard (hz : ∀ x, N.isZero x = true → x = 0) (ho : ∀ x, N.isOne x = true → x = 1) (hsr : 0 < sr)
    (hmf : 0 < mf) (i : Id) (k : FxKind) (hk : k.Usable) (d : Dsp FxNode) (hd : k.make sr mf i = .ok d)
    (es : List (ChainEvent ParameterRequest)) (hes : ∀ e ∈ es, (0 < e.frames ∧ e.frames ≤ mf) ∨ ∃ j r, e = .change j r)
    (hs : k.Sounding sr (k.track sr es i) x (ChainEvent.total es)) (z : ℕ → ℕ → ℝ) (L : List (Dsp FxNode))
    (h : chainRun (ops N) sr [d] es x = .ok (z, L)) :
    ∀ c F, F < ChainEvent.total es → z c F = k.heard sr (k.track sr es i) x c F := by
  have h' : chainRun (ops N) sr [d] es (later 0 x) = .ok (z, L) := by
    have : later 0 x = x := by funext c f; simp [later]
    rw [this]; exact h
  have hl : Level.unity.linear = 1 := by simp [Level.unity, Level.fromLinear]
  have hl0 : Level.zero.linear = 0 := by simp [Level.zero, Level.fromLinear]
  intro c F hF
  cases k with
  | gain ch =>
    cases hd
    have := run_single ((gain_total hz ho ch).steps _) i es 0 _ z L rfl rfl hes (Nat.zero_add _) rfl
      (new_gives es i (.gain ch) [("gain", 1)] ["gain"] (by simp [FxKind.parameters, HMap.get?, FxKind.default])) h' c F hF
    rw [this, Nat.zero_add]
    rfl
  | pan ch =>
    cases hd
    have := run_single ((pan_total ch hk).steps _) i es 0 _ z L rfl rfl hes (Nat.zero_add _) rfl
      (new_gives es i (.pan ch) [("pan", 0)] ["pan"] (by simp [FxKind.parameters, HMap.get?, FxKind.default])) h' c F hF
    rw [this, Nat.zero_add]
    rfl
  | biquad ch type =>
    cases hd
    have := run_single ((biquad_total hz ho ch type).steps _) i es 0 _ z L rfl rfl hes (Nat.zero_add _)
      ⟨_, rfl, Biquad.new_at_zero type sr ch _⟩
      (new_gives es i (.biquad ch type) _ _ (by simp [FxKind.parameters, HMap.get?, FxKind.default, hl])) h' c F hF
    rw [this, Nat.zero_add]
    rfl
  | oscillator freq ch table =>
    cases hd
    obtain ⟨k1, k2, k3⟩ := hk
    have := run_single (oscillator_steps hz ho ch k1 hsr table k2 k3 hs) i es 0 _ z L rfl rfl hes (Nat.zero_add _)
      ⟨_, rfl, rfl, le_rfl, zero_le_one, 0, by simp [Oscillator.new, Oscillator.cycles]⟩
      (new_gives es i (.oscillator freq ch table) _ _ (by simp [FxKind.parameters, HMap.get?, FxKind.default])) h' c F hF
    rw [this, Nat.zero_add]
    rfl
  | convolution ch impulse =>
    obtain ⟨k1, rfl, k3⟩ := hk
    obtain ⟨p, p1, p2⟩ := Convolver.new_ok impulse k1 mf hmf (Or.inl k3) impulse.sampleOrSilence x (by
      intro c hc f hf
      obtain ⟨u, hu⟩ := Buf.sample?_isSome impulse k1 c f hc hf
      rw [Buf.sampleOrSilence, hu]
      rfl)
    simp only [FxKind.make, p1, bind, Except.bind] at hd
    cases hd
    have := run_single ((convolution_total impulse.channelCount impulse.sampleOrSilence impulse.frameCount mf).steps _) i es 0 _ z L
      rfl rfl hes (Nat.zero_add _) ⟨_, rfl, p2⟩
      (new_gives es i (.convolution impulse.channelCount impulse) _ _
        (by simp [FxKind.parameters, HMap.get?, FxKind.default])) h' c F hF
    rw [this, Nat.zero_add]
    rfl
  | waveshaper ch curve =>
    cases hd
    have hS : Steps N sr mf ch ch ["overdrive", "mix"] (FxKind.track sr es i (.waveshaper ch curve)) x
        (fun c F => FxKind.effect sr (FxKind.track sr es i (.waveshaper ch curve)) x c F (.waveshaper ch curve))
        (ChainEvent.total es) (fun _ fx => ∃ w, fx = .waveshaper w ∧ w.Ok sr mf ∧
          w.transfer = (List.range 511).map (fun i => some (Waveshaper.corners curve i))) := by
      intro n m t fx value input output fx' o hm hmf hn hi hv hb hr
      obtain ⟨fx1, o1, h1, h2, h3, h4⟩ := waveshaper_runs hsr ch curve n m t fx value input output hm hmf hi hv hb
      rw [h1] at hr
      cases hr
      exact ⟨h2, h3, fun c hc f hf => h4 c hc f hf (hs _ (by omega))⟩
    have := run_single hS i es 0 _ z L rfl rfl hes (Nat.zero_add _)
      ⟨_, rfl, Waveshaper.new_ok .., Waveshaper.new_transfer curve _ (fun _ => rfl) sr mf⟩
      (new_gives es i (.waveshaper ch curve) _ _ (by simp [FxKind.parameters, HMap.get?, FxKind.default])) h' c F hF
    rw [this, Nat.zero_add]
    rfl
  | compressor ch =>
    cases hd
    have hS : Steps N sr mf ch ch ["attack", "release", "ratio", "threshold", "knee", "wet", "dry"]
        (FxKind.track sr es i (.compressor ch)) x
        (fun c F => FxKind.effect sr (FxKind.track sr es i (.compressor ch)) x c F (.compressor ch))
        (ChainEvent.total es) (fun n fx => ∃ k, fx = .compressor k ∧ Compressor.AtTime ch sr mf
          (FxKind.track sr es i (.compressor ch) "attack") (FxKind.track sr es i (.compressor ch) "release") x n k) := by
      intro n m t fx value input output fx' o hm hmf hn hi hv hb hr
      obtain ⟨fx1, o1, h1, h2, h3, h4⟩ := compressor_runs hz ho hsr ch n m t fx value input output hm hmf hi hv hb
      rw [h1] at hr
      cases hr
      exact ⟨h2, h3, fun c hc f hf => h4 c hc f hf (hs _ (by omega))⟩
    have := run_single hS i es 0 _ z L rfl rfl hes (Nat.zero_add _) ⟨_, rfl, Compressor.new_at ch sr mf hsr _ _ _⟩
      (new_gives es i (.compressor ch) _ _ (by simp [FxKind.parameters, HMap.get?, FxKind.default, hl, hl0])) h' c F hF
    rw [this, Nat.zero_add]
    rfl

/-- What an effect does at a frame depends on what went in until then. -/
theorem heard_agree (k : FxKind) {x y : ℕ → ℕ → ℝ} {total : Nat} (h : ∀ c F, F < total → x c F = y c F) (c F : ℕ)
    (hF : F < total) : k.heard sr v x c F = k.heard sr v y c F := by
  unfold FxKind.heard
  congr 1
  cases k with
  | gain ch => simp only [FxKind.effect]; rw [h c F hF]
  | pan ch => simp only [FxKind.effect]; rw [h c F hF]
  | oscillator f ch t => rfl
  | biquad ch type =>
    simp only [FxKind.effect]
    congr 1
    apply Biquad.response_agree
    · intro n hn; exact h c n (by omega)
  | convolution n impulse =>
    simp only [FxKind.effect]
    rw [h c F hF]
    congr 2
    apply Finset.sum_congr rfl
    intro i _
    split
    · rw [h c _ (by omega)]
    · rfl
  | waveshaper n curve => simp only [FxKind.effect]; rw [h c F hF]
  | compressor n =>
    simp only [FxKind.effect]
    rw [h c F hF, Compressor.loudness_agree (fun _ _ => rfl) (fun _ _ => rfl) (fun c i hi => h c i (by omega))]

/-- Whether an effect sounds for some frames depends on what goes in in these. -/
theorem sounding_agree (k : FxKind) {x y : ℕ → ℕ → ℝ} {total : Nat} (h : ∀ c F, F < total → x c F = y c F)
    (hs : k.Sounding sr v x total) : k.Sounding sr v y total := by
  cases k with
  | compressor n =>
    intro F hF
    rw [← Compressor.loudness_agree (fun _ _ => rfl) (fun _ _ => rfl) (fun c i hi => h c i (by omega))]
    exact hs F hF
  | _ => exact hs

end Fx
end Rawdio
