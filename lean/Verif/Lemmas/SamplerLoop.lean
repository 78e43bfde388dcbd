import Verif.Spec.SamplerLoop
import Verif.Lemmas.SamplerLate

/-! # A sampler that loops -/

namespace Rawdio
namespace Sampler

variable {S : Type}

open TimedEvent EventProcessor

/-- The frame at which the sampler goes back for the time `k`, counted from 0. -/
def loopEnd (a b k : Nat) : Nat := b + (b - a) * k

/-- The frame at which the part after `k` times going back began. -/
def loopBegin (a b : Nat) : Nat → Nat
  | 0 => 0
  | k + 1 => loopEnd a b k

theorem loopBegin_lt {a b : Nat} (hab : a < b) (k : Nat) : loopBegin a b k < loopEnd a b k := by
  cases k with
  | zero => simp only [loopBegin, loopEnd]; omega
  | succ k =>
    simp only [loopBegin, loopEnd, Nat.mul_succ]
    omega

theorem loops_le {a b k q : Nat} (h : loopBegin a b k ≤ q) : k * (b - a) ≤ q := by
  cases k with
  | zero => omega
  | succ k =>
    simp only [loopBegin, loopEnd] at h
    rw [Nat.succ_mul, Nat.mul_comm]
    omega

/-- The voices when one is taken to play from frame `p`. -/
def takenVoices (vs : List Voice) (p : Nat) : List Voice :=
  match (vs.map Voice.stop).findIdx? Voice.isStopped with
  | some i => (vs.map Voice.stop).set i (Voice.startFromPosition p)
  | none => vs.map Voice.stop

/-- The voices of the sampler when it has gone back `k` times. -/
def loopVoices (fade : Fade S) (a b : Nat) (vs : List Voice) : Nat → List Voice
  | 0 => vs
  | k + 1 => takenVoices ((loopVoices fade a b vs k).map fun v => v.after fade (loopEnd a b k - loopBegin a b k)) a

/-- The frame of the sample that is played at frame `q` after `k` times going back. -/
def loopFrame (a b k q : Nat) : Nat := if k = 0 then q else a + (q - loopBegin a b k)

theorem loopFrame_end {a b : Nat} (hab : a < b) (k : Nat) : loopFrame a b k (loopEnd a b k) = b := by
  cases k with
  | zero => simp [loopFrame, loopEnd]
  | succ k =>
    simp only [loopFrame, loopBegin, loopEnd, Nat.mul_succ]
    rw [if_neg (by omega)]
    omega

/-- A sampler that was started at the beginning of its sample, with the voices `vs` then, loops from frame `a` to frame
`b`, has gone back `k` times, and has played `q` frames in at most `D` parts. -/
structure Looping (s : Sampler S) (vs : List Voice) (a b k q D : Nat) : Prop where
  ok : s.Ok
  points : s.loopPoints =
    some (Timestamp.fromSamples (a : ℚ) s.sampleRate, Timestamp.fromSamples (b : ℚ) s.sampleRate)
  begin0 : s.startPosition = 0
  loops : s.completedLoops = k
  near : s.Near q D
  low : loopBegin a b k ≤ q
  high : q ≤ loopEnd a b k
  voices : s.voices = (loopVoices s.fade a b vs k).map fun v => v.after s.fade (q - loopBegin a b k)
  active : ∀ i, s.activeVoice = some i → ∃ v, s.voices[i]? = some v ∧ v.Sounding ∧ v.position = loopFrame a b k q

theorem looping_next {s : Sampler S} {vs : List Voice} {a b k q D : Nat} (h : s.Looping vs a b k q D) (hab : a < b) :
    |(s.nextLoopPosition : ℚ) - (loopEnd a b k : ℚ) / s.sampleRate * 2 ^ 32| ≤ 1 / 2 + (k : ℚ) := by
  have hsr : (0 : ℚ) < s.sampleRate := by exact_mod_cast h.ok.rate
  have ha := fromSamples_near a s.sampleRate
  have hb := fromSamples_near b s.sampleRate
  rw [nextLoopPosition_some h.ok.rate h.points, h.begin0, h.loops]
  have hk : (0 : ℚ) ≤ k := Nat.cast_nonneg k
  simp only [loopEnd]
  push_cast [Nat.cast_sub (le_of_lt hab)]
  obtain ⟨A, hA⟩ : ∃ A : ℚ, A = ((Timestamp.fromSamples (a : ℚ) s.sampleRate : Int) : ℚ) := ⟨_, rfl⟩
  obtain ⟨B, hB⟩ : ∃ B : ℚ, B = ((Timestamp.fromSamples (b : ℚ) s.sampleRate : Int) : ℚ) := ⟨_, rfl⟩
  rw [← hA] at ha ⊢
  rw [← hB] at hb ⊢
  have e : B - 0 + (B - A) * k - (b + (b - a) * k) / s.sampleRate * 2 ^ 32 =
      (B - b / s.sampleRate * 2 ^ 32) + ((B - b / s.sampleRate * 2 ^ 32) - (A - a / s.sampleRate * 2 ^ 32)) * k := by
    ring
  rw [e]
  have h1 : |(B - b / s.sampleRate * 2 ^ 32) - (A - a / s.sampleRate * 2 ^ 32)| ≤ 1 := by
    rw [abs_le] at *
    constructor <;> linarith [ha.1, ha.2, hb.1, hb.2]
  refine le_trans (abs_add_le _ _) (add_le_add hb ?_)
  rw [abs_mul, abs_of_nonneg hk]
  calc _ ≤ 1 * (k : ℚ) := mul_le_mul_of_nonneg_right h1 hk
    _ = k := one_mul _

/-- While the rounding is small the sampler renders up to the end of the loop. -/
theorem renderFrameCount_looping {s : Sampler S} {vs : List Voice} {a b k q D : Nat} (h : s.Looping vs a b k q D)
    (hab : a < b) (hD : (D + 2 * k + 2) * s.sampleRate ≤ 2 ^ 32) (r : Nat) :
    s.renderFrameCount r = min (loopEnd a b k - q) r := by
  have hs := h.ok
  have hnear := h.near
  have hsr : (0 : ℚ) < s.sampleRate := by exact_mod_cast hs.rate
  have hD' : ((D : ℚ) + 2 * k + 2) * s.sampleRate ≤ 2 ^ 32 := by exact_mod_cast hD
  have hN := looping_next h hab
  have hr := fromSamples_near r s.sampleRate
  obtain ⟨E, hE⟩ : ∃ E, E = loopEnd a b k := ⟨_, rfl⟩
  have hq : q ≤ E := hE ▸ h.high
  rw [← hE] at hN ⊢
  unfold Near at hnear
  rw [abs_le] at hnear hN hr
  obtain ⟨U, hU⟩ : ∃ U : ℚ, U = 2 ^ 32 / s.sampleRate := ⟨_, rfl⟩
  have hUD : ((D : ℚ) + 2 * k + 2) ≤ U := by rw [hU, le_div_iff₀ hsr]; exact hD'
  have eU : ∀ x : ℚ, x / s.sampleRate * 2 ^ 32 = x * U := by intro x; rw [hU]; ring
  rw [eU] at hnear hN hr
  have hD0 : (0 : ℚ) ≤ D := Nat.cast_nonneg D
  have hk0 : (0 : ℚ) ≤ k := Nat.cast_nonneg k
  have hU0 : 0 < U := by linarith
  rcases lt_or_ge (s.position + Timestamp.fromSamples (r : ℚ) s.sampleRate) s.nextLoopPosition with h1 | h1
  · rw [renderFrameCount_all hs r h1]
    have h1' : (s.position : ℚ) + ((Timestamp.fromSamples (r : ℚ) s.sampleRate : Int) : ℚ) <
        (s.nextLoopPosition : ℚ) := by exact_mod_cast h1
    have h2 : ((q : ℚ) + r) * U < E * U + U := by linarith [hnear.1, hN.2, hr.1]
    have h3 : (q : ℚ) + r < E + 1 := by
      by_contra hc
      push Not at hc
      have := mul_le_mul_of_nonneg_right hc hU0.le
      linarith
    have h4 : q + r < E + 1 := by exact_mod_cast h3
    omega
  · rw [renderFrameCount_end r h1]
    congr 1
    apply roundUsize_near
    rw [asSamples_eq, Nat.cast_sub hq]
    push_cast
    have e : ∀ x : ℚ, x * s.sampleRate / 2 ^ 32 = x / U := by
      intro x; rw [hU]; field_simp
    rw [e]
    have e2 : ((s.nextLoopPosition : ℚ) - s.position) / U - ((E : ℚ) - q) =
        ((s.nextLoopPosition : ℚ) - s.position - (E * U - q * U)) / U := by
      field_simp
    rw [e2, abs_div, abs_of_pos hU0, div_lt_iff₀ hU0, abs_lt]
    constructor <;> linarith [hnear.1, hnear.2, hN.1, hN.2]

theorem looping_advanced {s : Sampler S} {vs : List Voice} {a b k q D n : Nat} (h : s.Looping vs a b k q D)
    (hn : q + n ≤ loopEnd a b k) : (s.advanced n).Looping vs a b k (q + n) (D + 1) := by
  have hlow := h.low
  refine ⟨advanced_ok h.ok n, h.points, h.begin0, h.loops, near_advanced h.near n, by omega, hn, ?_, ?_⟩
  · simp only [advanced]
    rw [h.voices, List.map_map]
    refine List.map_congr_left fun v _ => ?_
    simp only [Function.comp]
    rw [Voice.after_after]
    congr 1
    omega
  · intro i hi
    obtain ⟨v, h1, h2, h3⟩ := h.active i hi
    refine ⟨v.after s.fade n, by simp [advanced, h1], ?_, ?_⟩
    · obtain ⟨p, ph⟩ := v
      rcases h2 with h2 | ⟨m, h2⟩
      · simp only at h2; subst h2; exact Or.inl rfl
      · simp only at h2; subst h2
        simp only [Voice.after, Voice.Sounding]
        split
        · exact Or.inr ⟨_, rfl⟩
        · exact Or.inl rfl
    · have e : (v.after s.fade n).position = v.position + n := by
        obtain ⟨p, ph⟩ := v
        rcases h2 with h2 | ⟨m, h2⟩ <;> (simp only at h2; subst h2; rfl)
      rw [e, h3]
      unfold loopFrame
      split <;> omega

theorem takeVoice_voices (s : Sampler S) (p : Nat) : (s.takeVoice p).voices = takenVoices s.voices p := by
  unfold takeVoice takenVoices
  simp only [stop]
  cases List.findIdx? Voice.isStopped (s.voices.map Voice.stop) <;> rfl

theorem takeVoice_taken {s : Sampler S} {p i : Nat} (h : (s.takeVoice p).activeVoice = some i) :
    (s.takeVoice p).voices[i]? = some (Voice.startFromPosition p) := by
  unfold takeVoice at *
  simp only [stop] at *
  cases hf : List.findIdx? Voice.isStopped (s.voices.map Voice.stop) with
  | none => rw [hf] at h; cases h
  | some m =>
    rw [hf] at h
    simp only [Option.some.injEq] at h
    subst h
    obtain ⟨hlt, _⟩ := List.findIdx?_eq_some_iff_getElem.mp hf
    simp only
    rw [List.getElem?_set_self hlt]

theorem takeVoice_begin (s : Sampler S) (p : Nat) : (s.takeVoice p).startPosition = s.startPosition :=
  (takeVoice_same s p).startPosition

theorem looping_finish {s : Sampler S} {vs : List Voice} {a b k D : Nat} (h : s.Looping vs a b k (loopEnd a b k) D)
    (hab : a < b) : s.finishSample.Looping vs a b (k + 1) (loopEnd a b k) D := by
  obtain ⟨x, hx⟩ : ∃ x : Sampler S, x = { s with completedLoops := s.completedLoops + 1 } := ⟨_, rfl⟩
  have hxok : x.Ok := by rw [hx]; exact ⟨h.ok.fade, h.ok.rate, h.ok.rate', h.ok.voices⟩
  have hfin : s.finishSample = x.takeVoice a := by
    unfold finishSample
    rw [h.points]
    simp only
    unfold loopBack assignVoice
    rw [← hx]
    simp only
    have hxr : x.sampleRate = s.sampleRate := by rw [hx]
    rw [hxr, roundUsize_samples a _ h.ok.rate h.ok.rate', if_neg]
    intro hc
    unfold activePosition at hc
    have hxa : x.activeVoice = s.activeVoice := by rw [hx]
    have hxv : x.voices = s.voices := by rw [hx]
    rw [hxa, hxv] at hc
    cases hact : s.activeVoice with
    | none => rw [hact] at hc; cases hc
    | some i =>
      obtain ⟨v, h1, _, h3⟩ := h.active i hact
      rw [hact] at hc
      simp only [Option.bind_some, h1, Option.map_some, Option.some.injEq] at hc
      rw [h3, loopFrame_end hab] at hc
      omega
  have hsame := takeVoice_same x a
  have hxf : x.fade = s.fade := by rw [hx]
  have hok := takeVoice_ok hxok a
  rw [hfin]
  refine ⟨hok, ?_, ?_, ?_, ?_, le_refl _, ?_, ?_, ?_⟩
  · rw [hsame.loopPoints, hsame.sampleRate, hx]
    exact h.points
  · rw [hsame.startPosition, hx]; exact h.begin0
  · rw [takeVoice_loops, hx]; simp only; rw [h.loops]
  · have := h.near
    unfold Near at *
    rw [takeVoice_position, hsame.sampleRate, hx]
    exact this
  · simp only [loopEnd, Nat.mul_succ]; omega
  · have e : (x.takeVoice a).voices = loopVoices s.fade a b vs (k + 1) := by
      rw [takeVoice_voices, loopVoices]
      congr 1
      rw [hx]
      exact h.voices
    have hid : ∀ v ∈ (x.takeVoice a).voices, v.after s.fade 0 = v := fun v hv =>
      Voice.after_zero _ _ (by have := hok.voices v hv; rwa [hsame.fade, hxf] at this)
    rw [hsame.fade, hxf, ← e, show loopEnd a b k - loopBegin a b (k + 1) = 0 by simp [loopBegin],
      List.map_congr_left (g := id) hid, List.map_id]
  · intro i hi
    refine ⟨_, takeVoice_taken hi, ?_, ?_⟩
    · unfold Voice.startFromPosition Voice.Sounding
      by_cases ha : a = 0
      · exact Or.inl (by simp [ha])
      · exact Or.inr ⟨0, by simp [ha]⟩
    · simp [Voice.startFromPosition, loopFrame, loopBegin]

section Render

variable [Add S] [Mul S] [One S]

/-- How many times the sampler has gone back before it plays frame `q`. -/
def loopsAt (a b q : Nat) : Nat := if q < b then 0 else (q - b) / (b - a) + 1

omit [Add S] [Mul S] [One S] in
theorem loopsAt_eq {a b k q : Nat} (hab : a < b) (h1 : loopBegin a b k ≤ q) (h2 : q < loopEnd a b k) :
    loopsAt a b q = k := by
  unfold loopsAt
  cases k with
  | zero =>
    simp only [loopEnd, Nat.mul_zero, Nat.add_zero] at h2
    rw [if_pos h2]
  | succ k =>
    simp only [loopBegin, loopEnd, Nat.mul_succ] at h1 h2
    rw [if_neg (by omega)]
    have : (q - b) / (b - a) = k := by
      apply Nat.div_eq_of_lt_le
      · rw [Nat.mul_comm]; omega
      · rw [Nat.mul_comm, Nat.mul_succ]; omega
    omega

/-- What is done to sample `o` of the output at frame `q`. -/
def loopMix (fade : Fade S) (sample : Grid S) (vs : List Voice) (a b c q : Nat) (o : S) : S :=
  mixVoices fade sample (loopVoices fade a b vs (loopsAt a b q)) c (q - loopBegin a b (loopsAt a b q)) o

theorem mixVoices_later (fade : Fade S) (src : Grid S) (vs : List Voice) (n c i : Nat) (o : S) :
    mixVoices fade src (vs.map fun v => v.after fade n) c i o = mixVoices fade src vs c (n + i) o := by
  unfold mixVoices
  rw [List.foldl_map]
  simp only [Voice.heard_after]

theorem mixed_looping {s : Sampler S} {vs : List Voice} {a b k q D n : Nat} (h : s.Looping vs a b k q D) (hab : a < b)
    (hn : q + n ≤ loopEnd a b k) (out : Grid S) (o : Nat) :
    s.mixed out ⟨o, n⟩ = out.changed ⟨o, n⟩ (fun c i x => loopMix s.fade s.buffer vs a b c (q + i) x) := by
  have hlow := h.low
  unfold mixed
  refine Voice.changed_congr _ _ _ _ fun c i x _ hi => ?_
  simp only at hi
  rw [loopMix, loopsAt_eq (k := k) hab (by omega) (by omega), h.voices, mixVoices_later]
  congr 1
  omega

/-- A part of a block of a sampler that loops, when the end of the loop has not been reached. -/
theorem processSample_looping {vs : List Voice} {a b : Nat} (hab : a < b) (w : Window) (K : Nat) : ∀ (r fp : Nat)
    {s : Sampler S} {k q D : Nat} (out : Grid S), s.Looping vs a b k q D → q < loopEnd a b k →
    w.offset + w.count ≤ out.frames → w.count - fp = r → q + r ≤ K * (b - a) →
    (D + 2 * K + (K - k) + 3) * s.sampleRate ≤ 2 ^ 32 →
    ∃ f t k' D', processSample w f fp s out =
        .ok (t, out.changed ⟨w.offset + fp, r⟩ (fun c i x => loopMix s.fade s.buffer vs a b c (q + i) x)) ∧
      t.Looping vs a b k' (q + r) D' ∧ k ≤ k' ∧ D' ≤ D + 1 + (k' - k) ∧ SameRest s t := by
  intro r
  induction r using Nat.strong_induction_on with
  | _ r ih =>
    intro fp s k q D out h hq hw hr hK hD
    have hab' : 0 < b - a := by omega
    by_cases hr0 : r = 0
    · subst hr0
      refine ⟨0, s, k, D, ?_, h, le_refl _, by omega, SameRest.refl s⟩
      rw [processSample_done (by omega)]
      congr 2
      refine (Grid.ext' rfl rfl fun c f => ?_ : out.changed _ _ = out).symm
      rw [Grid.changed_mk, if_neg (by omega)]
    · have hk : k ≤ K := by
        have h1 := loops_le h.low
        by_contra hc
        have h2 := Nat.mul_le_mul_right (b - a) (show K + 1 ≤ k by omega)
        rw [Nat.succ_mul] at h2
        omega
      have hn := renderFrameCount_looping h hab (le_trans (Nat.mul_le_mul_right _ (by omega)) hD) r
      obtain ⟨n, hn'⟩ : ∃ n, n = min (loopEnd a b k - q) r := ⟨_, rfl⟩
      rw [← hn'] at hn
      have hstep := processSample_step (fuel := 0) (fp := fp) (w := w) (out := out) h.ok hw (by omega)
        (by rw [hr, hn]; omega)
      rw [hr, hn] at hstep
      have hadv := looping_advanced (n := n) h (by omega)
      have hmix := mixed_looping (n := n) h hab (by omega) out (w.offset + fp)
      have hstep' : ∀ f, processSample w (f + 1) fp s out = processSample w f (fp + n) (s.advanced n)
          (s.mixed out ⟨w.offset + fp, n⟩) := by
        intro f
        have := processSample_step (fuel := f) (fp := fp) (w := w) (out := out) h.ok hw (by omega)
          (by rw [hr, hn]; omega)
        rw [hr, hn] at this
        exact this
      rcases Nat.lt_or_ge n r with hlt | hge
      · have he : q + n = loopEnd a b k := by omega
        rw [he] at hadv
        have hfin := looping_finish hadv hab
        have hkK : k + 1 ≤ K := by
          have h1 := loops_le hfin.low
          by_contra hc
          have h2 := Nat.mul_le_mul_right (b - a) (show K + 1 ≤ k + 1 by omega)
          rw [Nat.succ_mul] at h2
          omega
        have hsame : SameRest s (s.advanced n).finishSample := (advanced_same s n).trans (finishSample_same _)
        obtain ⟨f, t, k', D', p1, p2, p3, p4, p5⟩ := ih (r - n) (by omega) (fp + n) (s.mixed out ⟨w.offset + fp, n⟩) hfin
          (loopBegin_lt hab (k + 1)) hw (by omega) (by omega)
          (by rw [hsame.sampleRate]; refine le_trans (Nat.mul_le_mul_right _ ?_) hD; omega)
        refine ⟨f + 2, t, k', D', ?_, ?_, by omega, by omega, hsame.trans p5⟩
        · rw [hstep' (f + 1), processSample_loop (by omega) ?_ ?_, p1, hsame.fade, hsame.buffer, hmix]
          · congr 2
            have := Voice.changed_changed out ⟨w.offset + fp, r⟩ n (r - n)
              (fun c i x => loopMix s.fade s.buffer vs a b c (q + i) x) (by simp only; omega)
            simp only at this
            rw [← this, Nat.add_assoc]
            congr 1
            funext c i x
            rw [← he, Nat.add_assoc]
          · rw [renderFrameCount_looping hadv hab
              (by refine le_trans (Nat.mul_le_mul_right _ ?_) hD; omega)]
            omega
          · rw [hadv.points]; rfl
        · have e : loopEnd a b k + (r - n) = q + r := by omega
          rw [e] at p2
          exact p2
      · have hnr : n = r := by omega
        subst hnr
        refine ⟨1, s.advanced n, k, D + 1, ?_, hadv, le_refl _, by omega, advanced_same s n⟩
        rw [hstep' 0, processSample_done (by omega), hmix]

/-- A part of a block of a sampler that loops. -/
theorem processSample_loops {vs : List Voice} {a b : Nat} (hab : a < b) (w : Window) (K : Nat) {s : Sampler S}
    {k q D : Nat} (out : Grid S) (h : s.Looping vs a b k q D) (hw : w.offset + w.count ≤ out.frames)
    (hc : 0 < w.count) (hK : q + w.count ≤ K * (b - a)) (hD : (D + 2 * K + (K - k) + 3) * s.sampleRate ≤ 2 ^ 32) :
    ∃ f t k' D', processSample w f 0 s out =
        .ok (t, out.changed w (fun c i x => loopMix s.fade s.buffer vs a b c (q + i) x)) ∧
      t.Looping vs a b k' (q + w.count) D' ∧ k ≤ k' ∧ D' ≤ D + 1 + (k' - k) ∧ SameRest s t := by
  have hab' : 0 < b - a := by omega
  rcases Nat.lt_or_ge q (loopEnd a b k) with hq | hq
  · have := processSample_looping hab w K w.count 0 out h hq hw (by omega) hK hD
    simpa using this
  · have he : q = loopEnd a b k := le_antisymm h.high hq
    subst he
    have hfin := looping_finish h hab
    have hsame := finishSample_same s
    have hkK : k + 1 ≤ K := by
      have h1 := loops_le hfin.low
      by_contra hc
      have h2 := Nat.mul_le_mul_right (b - a) (show K + 1 ≤ k + 1 by omega)
      rw [Nat.succ_mul] at h2
      omega
    obtain ⟨f, t, k', D', p1, p2, p3, p4, p5⟩ := processSample_looping hab w K w.count 0 out hfin
      (loopBegin_lt hab (k + 1)) hw (by omega) hK
      (by rw [hsame.sampleRate]; refine le_trans (Nat.mul_le_mul_right _ ?_) hD; omega)
    refine ⟨f + 1, t, k', D', ?_, p2, by omega, by omega, hsame.trans p5⟩
    rw [processSample_loop hc ?_ ?_, p1, hsame.fade, hsame.buffer]
    · simp
    · rw [renderFrameCount_looping h hab (by refine le_trans (Nat.mul_le_mul_right _ ?_) hD; omega)]
      simp
    · rw [h.points]; rfl

/-- A block with two events, which are due at its start, is a block without events after them. -/
theorem two_events {s : Sampler S} (hs : s.Ok) (hp : s.events.pending = []) (hch : s.events.channel = [])
    (e d : SamplerEvent) (hce : clearsQueue e = false) (hcd : clearsQueue d = false) (hed : before e d = true) (f : Nat)
    (out : Grid S) (start : Int) (hn : 0 < out.frames) (he : e.time ≤ start) (hd : d.time ≤ start) :
    (s.sendAll [e, d]).processAudio f out start =
      ((s.processEvent e start).processEvent d start).processAudio f out start := by
  obtain ⟨ev, hev⟩ : ∃ ev : EventProcessor SamplerEvent,
    ev = { s.events with pending := [e, d], channel := [] } := ⟨_, rfl⟩
  have hre : (s.sendAll [e, d]).events.receiveEvents = ev := by
    rw [sendAll_eq, hev]
    have h1 : ([e, d]).foldl push [] = [e, d] := by
      simp [push, hce, hcd]
    have h2 : ([e, d] : List SamplerEvent).mergeSort before = [e, d] :=
      List.mergeSort_of_pairwise (by simp [hed])
    simp only [hch, List.nil_append, receiveEvents, hp, h1, h2]
  have hx : ({ s.sendAll [e, d] with events := ev } : Sampler S) = { s with events := ev } := by
    rw [sendAll_eq]
  obtain ⟨y, hy⟩ : ∃ y, y = (s.processEvent e start).processEvent d start := ⟨_, rfl⟩
  have hpe : y.events = s.events := by rw [hy, processEvent_events, processEvent_events]
  have hrc : y.events.receiveEvents = s.events := by
    rw [hpe]
    unfold receiveEvents
    rw [hch]
  have hsv : ({ y with events := s.events } : Sampler S) = y := by rw [← hpe]
  have hsame : SameFixed s (s.processEvent e start) := processEvent_fixed s e start
  rw [← hy, processAudio_eq, processAudio_eq, hre, hrc, hx, hsv, hp, hev]
  simp only
  rw [← hev, blockLoop_first (s := { s with events := ev }) hs.rate hs.rate' hn he f, processEvent_ev,
    blockLoop_first (s := { s.processEvent e start with events := ev }) (by simp only [hsame.sampleRate]; exact hs.rate)
      (by simp only [hsame.sampleRate]; exact hs.rate') hn hd f, processEvent_ev, ← hy,
    blockLoop_nil _ _ _ _ hn, blockLoop_nil _ _ _ _ hn, processSample_ev]
  cases processSample ⟨0, out.frames⟩ f 0 y out with
  | error e => rfl
  | ok r =>
    simp only [Except.map, Except.bind]
    rw [hch]

/-- A block without events. -/
theorem loop_part {vs : List Voice} {a b : Nat} (hab : a < b) (K : Nat) {s : Sampler S} {k q D : Nat}
    (h : s.Looping vs a b k q D) (out : Grid S) (start : Int) (hn : 0 < out.frames) (hp : s.events.pending = [])
    (hch : s.events.channel = []) (hK : q + out.frames ≤ K * (b - a))
    (hD : (D + 2 * K + (K - k) + 3) * s.sampleRate ≤ 2 ^ 32) :
    ∃ f t k' D', processAudio f s out start =
        .ok (t, out.changed ⟨0, out.frames⟩ (fun c i x => loopMix s.fade s.buffer vs a b c (q + i) x)) ∧
      t.Looping vs a b k' (q + out.frames) D' ∧ k ≤ k' ∧ D' ≤ D + 1 + (k' - k) ∧ SameFixed s t ∧
      t.events.pending = [] ∧ t.events.channel = [] := by
  obtain ⟨f, t, k', D', p1, p2, p3, p4, p5⟩ := processSample_loops hab ⟨0, out.frames⟩ K out h (by simp) hn hK hD
  have hr : s.events.receiveEvents = s.events := by
    unfold receiveEvents
    rw [hch]
  refine ⟨f, { t with events := { s.events with pending := [] } }, k', D', ?_,
    ⟨⟨p2.ok.fade, p2.ok.rate, p2.ok.rate', p2.ok.voices⟩, p2.points, p2.begin0, p2.loops, p2.near, p2.low, p2.high,
      p2.voices, p2.active⟩, p3, p4, ⟨p5.fade, p5.buffer, p5.sampleRate⟩, rfl, hch⟩
  have hsv : ({ s with events := s.events } : Sampler S) = s := rfl
  rw [processAudio_eq, hr, hp, hsv, blockLoop_nil _ _ _ _ hn, p1]
  rfl

/-- The outputs of a sampler that loops, from its frame `q` on. -/
def loopOutputs (fade : Fade S) (sample : Grid S) (vs : List Voice) (a b : Nat) :
    Nat → List (SamplerBlock S) → List (Grid S)
  | _, [] => []
  | q, x :: xs => x.out.changed ⟨0, x.out.frames⟩ (fun c i o => loopMix fade sample vs a b c (q + i) o) ::
      loopOutputs fade sample vs a b (q + x.out.frames) xs

theorem looping_run {vs : List Voice} {a b : Nat} (hab : a < b) (K : Nat) (bs : List (SamplerBlock S)) :
    ∀ {s : Sampler S} {k q D : Nat}, s.Looping vs a b k q D → s.events.pending = [] → s.events.channel = [] →
    (∀ x ∈ bs, x.sent = [] ∧ 0 < x.out.frames) → q + framesOf bs ≤ K * (b - a) →
    (D + bs.length + 2 * K + (K - k) + 3) * s.sampleRate ≤ 2 ^ 32 →
    ∃ f t, run f s bs = .ok (t, loopOutputs s.fade s.buffer vs a b q bs) := by
  induction bs with
  | nil => intro s k q D _ _ _ _ _ _; exact ⟨0, s, rfl⟩
  | cons x bs ih =>
    intro s k q D h hp hch hb hK hD
    have hf : framesOf (x :: bs) = x.out.frames + framesOf bs := by simp [framesOf]
    rw [hf] at hK
    simp only [List.length_cons] at hD
    obtain ⟨f, t, k', D', p1, p2, p3, p4, p5, p6, p7⟩ := loop_part hab K h x.out x.start (hb x (by simp)).2 hp hch
      (by omega) (le_trans (Nat.mul_le_mul_right _ (by omega)) hD)
    have hk' : k' ≤ K := by
      have h1 := loops_le p2.low
      by_contra hc
      have h2 := Nat.mul_le_mul_right (b - a) (show K + 1 ≤ k' by omega)
      rw [Nat.succ_mul] at h2
      omega
    obtain ⟨g, u, hu⟩ := ih p2 p6 p7 (fun c hc => hb c (by simp [hc])) (by omega)
      (by rw [p5.sampleRate]; exact le_trans (Nat.mul_le_mul_right _ (by omega)) hD)
    refine ⟨f + g, u, ?_⟩
    rw [run, (hb x (by simp)).1]
    simp only [bind]
    have hs0 : s.sendAll [] = s := rfl
    rw [hs0, processAudio_mono p1 g]
    simp only [Except.bind]
    rw [Nat.add_comm f g, run_mono bs hu f, p5.buffer, p5.fade]
    rfl

/-- An idle sampler that is told to start and to loop. -/
theorem looping_start {s : Sampler S} (hs : s.Idle) {v w : Voice} (hv : s.voices = [v, w]) (a b : Nat) (t : Int)
    (n m : Nat) : ((s.processEvent (.startNow n) t).processEvent (.enableLoop m
      (Timestamp.fromSamples (a : ℚ) s.sampleRate) (Timestamp.fromSamples (b : ℚ) s.sampleRate)) t).Looping
        [⟨0, .playing⟩, w] a b 0 0 0 := by
  have hw : w.phase = .stopped := hs.stopped w (by rw [hv]; simp)
  have hv0 : v.phase = .stopped := hs.stopped v (by rw [hv]; simp)
  have hsame := start_same s 0 0
  have h0 : roundUsize (Timestamp.asSamples (0 + 0) s.sampleRate) = 0 := by
    have : Timestamp.asSamples (0 + 0) s.sampleRate = 0 := by simp [Timestamp.asSamples, Timestamp.asSeconds]
    rw [this]
    exact roundUsize_eq_zero (by norm_num)
  have hva : (s.start 0 0).voices = [⟨0, .playing⟩, w] ∧ (s.start 0 0).activeVoice = some 0 := by
    have hact : s.activePosition = none := by simp [activePosition, hs.active]
    unfold Sampler.start assignVoice
    simp only
    rw [h0, hact, if_neg (by simp)]
    unfold takeVoice
    obtain ⟨p, ph⟩ := v
    obtain ⟨p', ph'⟩ := w
    simp only at hw hv0
    subst hw hv0
    simp [stop, hv, Voice.stop, Voice.isStopped, List.findIdx?_cons, Voice.startFromPosition]
  have hok := start_ok hs.ok 0 0
  have e : (s.processEvent (.startNow n) t).processEvent (.enableLoop m
      (Timestamp.fromSamples (a : ℚ) s.sampleRate) (Timestamp.fromSamples (b : ℚ) s.sampleRate)) t =
      { s.start 0 0 with loopPoints := some (Timestamp.fromSamples (a : ℚ) s.sampleRate,
        Timestamp.fromSamples (b : ℚ) s.sampleRate) } := rfl
  rw [e]
  refine ⟨⟨hok.fade, hok.rate, hok.rate', hok.voices⟩, ?_, rfl, rfl, ?_, le_refl _, Nat.zero_le _, ?_, ?_⟩
  · simp only [hsame.2.2.2.1]
  · simp [Near, Sampler.start]
  · obtain ⟨p', ph'⟩ := w
    simp only at hw
    subst hw
    simp [hva.1, loopVoices, loopBegin, Voice.after]
  · intro i hi
    simp only [hva.2, Option.some.injEq] at hi
    subst hi
    exact ⟨⟨0, .playing⟩, by simp [hva.1], Or.inl rfl, by simp [loopFrame]⟩

/-- What an idle sampler plays that is told to start and to loop. -/
theorem loops_run {s : Sampler S} (hs : s.Idle) (hp : s.events.pending = []) {v w : Voice} (hv : s.voices = [v, w])
    {a b : Nat} (hab : a < b) (n m : Nat) (hnm : n ≤ m) (x : SamplerBlock S) (bs : List (SamplerBlock S))
    (hsent : x.sent = [.startNow n, .enableLoop m (Timestamp.fromSamples (a : ℚ) s.sampleRate)
      (Timestamp.fromSamples (b : ℚ) s.sampleRate)]) (h0 : 0 ≤ x.start) (hn : 0 < x.out.frames)
    (hbs : ∀ c ∈ bs, c.sent = [] ∧ 0 < c.out.frames)
    (hlen : (bs.length + 3 * (framesOf (x :: bs) / (b - a)) + 7) * s.sampleRate ≤ 2 ^ 32) :
    ∃ f t, run f s (x :: bs) = .ok (t, loopOutputs s.fade s.buffer [⟨0, .playing⟩, w] a b 0 (x :: bs)) := by
  have hL := looping_start hs hv a b x.start n m
  obtain ⟨y, hy⟩ : ∃ y, y = (s.processEvent (.startNow n) x.start).processEvent (.enableLoop m
      (Timestamp.fromSamples (a : ℚ) s.sampleRate) (Timestamp.fromSamples (b : ℚ) s.sampleRate)) x.start := ⟨_, rfl⟩
  rw [← hy] at hL
  have hsf : SameFixed s y := by
    rw [hy]; exact (processEvent_fixed _ _ _).trans (processEvent_fixed _ _ _)
  have hye : y.events = s.events := by rw [hy, processEvent_events, processEvent_events]
  have hK : framesOf (x :: bs) ≤ (framesOf (x :: bs) / (b - a) + 1) * (b - a) := by
    have h1 := Nat.lt_div_mul_add (a := framesOf (x :: bs)) (b := b - a) (by omega)
    rw [Nat.succ_mul]
    omega
  obtain ⟨f, t, ht⟩ := looping_run hab (framesOf (x :: bs) / (b - a) + 1) (⟨[], x.start, x.out⟩ :: bs) hL
    (by rw [hye]; exact hp) (by rw [hye]; exact hs.channel) (by
      intro c hc
      rcases List.mem_cons.mp hc with rfl | hc
      · exact ⟨rfl, hn⟩
      · exact hbs c hc) (by rw [Nat.zero_add]; exact hK) (by
      rw [hsf.sampleRate]
      refine le_trans (Nat.mul_le_mul_right _ ?_) hlen
      simp only [List.length_cons]
      omega)
  refine ⟨f, t, ?_⟩
  rw [hsf.fade, hsf.buffer] at ht
  rw [run] at ht ⊢
  have hs0 : y.sendAll [] = y := rfl
  simp only [hs0] at ht
  rw [hsent, two_events hs.ok hp hs.channel _ _ rfl rfl (by
    simp [before, TimedEvent.time, TimedEvent.sequenceNumber, SamplerEvent.startNow, SamplerEvent.enableLoop, hnm]) f x.out
    x.start hn h0 h0, ← hy]
  exact ht

end Render

/-! ## What is heard -/

section Heard

variable [Semiring S]

theorem mix_plain (sample : Grid S) (c f : Nat) (o : S) :
    (Heard.plain f).mix sample c o = o + sampleFrame sample c f := by
  simp only [Heard.mix, sampleFrame]
  split <;> simp

theorem mix_faded (sample : Grid S) (c f : Nat) (g o : S) :
    (Heard.faded g f).mix sample c o = o + g * sampleFrame sample c f := by
  simp only [Heard.mix, sampleFrame]
  split <;> simp

theorem mix_in (fade : Fade S) (sample : Grid S) (a c j : Nat) (o : S) :
    ((Voice.startFromPosition a).heard fade j).mix sample c o = o + levelIn fade a j * sampleFrame sample c (a + j) := by
  unfold Voice.startFromPosition levelIn
  by_cases ha : a = 0
  · simp [ha, Voice.heard, mix_plain]
  · simp only [ha, if_false, Voice.heard, Nat.zero_add]
    split
    · rw [mix_faded]
    · rename_i h
      rw [mix_plain, List.getElem?_eq_none (by omega)]
      simp

theorem mix_out (fade : Fade S) (sample : Grid S) (b c j : Nat) (o : S) :
    (Voice.heard fade ⟨b, .fadingOut 0⟩ j).mix sample c o = o + levelOut fade j * sampleFrame sample c (b + j) := by
  simp only [levelOut, Voice.heard, Nat.zero_add]
  split
  · rw [mix_faded]
  · simp [Heard.mix]

theorem loopVoices_long (fade : Fade S) {a b : Nat} (hab : a < b) (hfade : 0 < fade.values.length)
    (hlong : fade.values.length ≤ b - a) {w : Voice} (hw : w.phase = .stopped) (k : Nat) :
    loopVoices fade a b [⟨0, .playing⟩, w] (k + 1) =
      if k % 2 = 0 then [⟨b, .fadingOut 0⟩, Voice.startFromPosition a] else [Voice.startFromPosition a, ⟨b, .fadingOut 0⟩] := by
  have hstart : ((Voice.startFromPosition a).after fade (b - a)).stop = ⟨b, .fadingOut 0⟩ := by
    unfold Voice.startFromPosition
    by_cases ha : a = 0
    · simp [ha, Voice.after, Voice.stop]
    · simp only [ha, if_false, Voice.after]
      have : a + (b - a) = b := by omega
      rw [this]
      split <;> rfl
  have hout : (Voice.after fade ⟨b, .fadingOut 0⟩ (b - a)).stop = ⟨b + fade.values.length, .stopped⟩ := by
    rw [Voice.after_out_ge fade (by omega)]
    simp [Voice.stop]
  have hlen : ∀ k, loopEnd a b (k + 1) - loopBegin a b (k + 1) = b - a := by
    intro k
    simp only [loopEnd, loopBegin, Nat.mul_succ]
    omega
  induction k with
  | zero =>
    obtain ⟨p, ph⟩ := w
    simp only at hw
    subst hw
    simp [loopVoices, takenVoices, loopEnd, loopBegin, Voice.after, Voice.stop, Voice.isStopped, List.findIdx?_cons]
  | succ k ih =>
    rw [loopVoices, ih, hlen]
    by_cases hk : k % 2 = 0
    · have hk' : ¬ (k + 1) % 2 = 0 := by omega
      rw [if_pos hk, if_neg hk', takenVoices]
      simp only [List.map_cons, List.map_nil, hout, hstart]
      simp [Voice.isStopped, List.findIdx?_cons]
    · have hk' : (k + 1) % 2 = 0 := by omega
      rw [if_neg hk, if_pos hk', takenVoices]
      simp only [List.map_cons, List.map_nil, hout, hstart]
      simp [Voice.isStopped, List.findIdx?_cons]

theorem loopMix_long (fade : Fade S) (sample : Grid S) {a b : Nat} (hab : a < b) (hfade : 0 < fade.values.length)
    (hlong : fade.values.length ≤ b - a) {w : Voice} (hw : w.phase = .stopped) (c q : Nat) (o : S) :
    loopMix fade sample [⟨0, .playing⟩, w] a b c q o = o + looped fade sample a b c q := by
  unfold loopMix looped
  by_cases hq : q < b
  · have e : loopsAt a b q = 0 := by simp [loopsAt, hq]
    rw [e, if_pos hq]
    obtain ⟨p, ph⟩ := w
    simp only at hw
    subst hw
    simp only [loopVoices, mixVoices, List.foldl_cons, List.foldl_nil, Voice.heard, mix_plain, loopBegin, Nat.sub_zero,
      Nat.zero_add]
    rw [Heard.mix]
  · have e : loopsAt a b q = (q - b) / (b - a) + 1 := by simp [loopsAt, hq]
    rw [e, if_neg hq, loopVoices_long fade hab hfade hlong hw]
    have hj : q - loopBegin a b ((q - b) / (b - a) + 1) = (q - b) % (b - a) := by
      simp only [loopBegin, loopEnd]
      have := Nat.div_add_mod (q - b) (b - a)
      omega
    rw [hj]
    split
    · simp only [mixVoices, List.foldl_cons, List.foldl_nil, mix_in, mix_out]
      rw [add_assoc, add_comm (levelOut fade _ * _)]
    · simp only [mixVoices, List.foldl_cons, List.foldl_nil, mix_in, mix_out]
      rw [add_assoc]

/-- The voices of a sampler with a whole sample as a loop that is shorter than the fade, when it has gone back twice. -/
theorem loopMix_short (fade : Fade S) (sample : Grid S) (hN : 0 < sample.frames)
    (hshort : sample.frames < fade.values.length) {w : Voice} (hw : w.phase = .stopped) (c q : Nat)
    (h2 : 2 * sample.frames ≤ q) (h3 : q < 3 * sample.frames) (o : S) :
    loopMix fade sample [⟨0, .playing⟩, w] 0 sample.frames c q o = o := by
  obtain ⟨N, hN'⟩ : ∃ N, N = sample.frames := ⟨_, rfl⟩
  have e : loopsAt 0 sample.frames q = 2 := by
    apply loopsAt_eq hN <;> simp only [loopBegin, loopEnd] <;> omega
  unfold loopMix
  rw [e]
  obtain ⟨p, ph⟩ := w
  simp only at hw
  subst hw
  have e1 : loopVoices fade 0 sample.frames [⟨0, .playing⟩, ⟨p, .stopped⟩] 1 =
      [⟨sample.frames, .fadingOut 0⟩, ⟨0, .playing⟩] := by
    simp [loopVoices, takenVoices, loopEnd, loopBegin, Voice.after, Voice.stop, Voice.isStopped, List.findIdx?_cons,
      Voice.startFromPosition]
  have e2 : loopVoices fade 0 sample.frames [⟨0, .playing⟩, ⟨p, .stopped⟩] 2 =
      [⟨sample.frames + sample.frames, .fadingOut sample.frames⟩, ⟨sample.frames, .fadingOut 0⟩] := by
    rw [loopVoices, e1]
    have : loopEnd 0 sample.frames 1 - loopBegin 0 sample.frames 1 = sample.frames := by
      simp [loopEnd, loopBegin]
    rw [this]
    simp only [List.map_cons, List.map_nil]
    rw [Voice.after_out_lt fade (by omega)]
    simp [takenVoices, Voice.after, Voice.stop, Voice.isStopped, List.findIdx?_cons]
  rw [e2]
  have hout : ∀ (g : S) (f : Nat), sample.frames ≤ f → ∀ o, (Heard.faded g f).mix sample c o = o := by
    intro g f hf o
    rw [Heard.mix, if_neg (by omega)]
  simp only [mixVoices, List.foldl_cons, List.foldl_nil, Voice.heard]
  split <;> split <;> simp only [Heard.mix] <;> (try rw [if_neg (by omega)]) <;> (try rw [if_neg (by omega)])

theorem loopOutputs_added (fade : Fade S) (sample : Grid S) {a b : Nat} (hab : a < b) (hfade : 0 < fade.values.length)
    (hlong : fade.values.length ≤ b - a) {w : Voice} (hw : w.phase = .stopped) (bs : List (SamplerBlock S)) : ∀ q,
    loopOutputs fade sample [⟨0, .playing⟩, w] a b q bs = addedFrom (looped fade sample a b) q bs := by
  induction bs with
  | nil => intro q; rfl
  | cons x bs ih =>
    intro q
    rw [loopOutputs, addedFrom, ih]
    congr 1
    refine Grid.ext' rfl rfl fun c f => ?_
    rw [Grid.changed_mk]
    simp only [Nat.zero_le, true_and, Nat.zero_add, Nat.sub_zero, loopMix_long fade sample hab hfade hlong hw]

end Heard
end Sampler
end Rawdio
