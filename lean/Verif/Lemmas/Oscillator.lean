import Mathlib.Analysis.Convex.Deriv
import Mathlib.Analysis.SpecialFunctions.Trigonometric.Deriv
import Verif.Lemmas.BiquadRun
import Verif.Spec.Oscillator

/-! # Lemmas about the oscillator -/

namespace Rawdio
namespace Oscillator

open Buf Biquad

theorem getD_none {l : List ℝ} {i : ℕ} (h : l.length ≤ i) : l.getD i 0 = 0 := by
  rw [List.getD_eq_getElem?_getD, List.getElem?_eq_none h]
  rfl

theorem getD_some {l : List ℝ} {i : ℕ} (h : i < l.length) : l.getD i 0 = l[i] := by
  rw [List.getD_eq_getElem?_getD, List.getElem?_eq_getElem h]
  rfl

theorem wrap_ok (fuel : ℕ) : ∀ x : ℝ, 0 < x → x < fuel →
    ∃ (m : ℕ) (p : ℝ), wrap fuel x = .ok p ∧ 0 < p ∧ p ≤ 1 ∧ p + m = x := by
  induction fuel with
  | zero => intro x h1 h2; simp at h2; linarith
  | succ fuel ih =>
    intro x h1 h2
    rw [wrap]
    by_cases h : x > 1
    · rw [if_pos h]
      obtain ⟨m, p, e1, e2, e3, e4⟩ := ih (x - 1) (by linarith) (by push_cast at h2; linarith)
      exact ⟨m + 1, p, e1, e2, e3, by push_cast; linarith⟩
    · rw [if_neg h]
      exact ⟨0, x, rfl, h1, not_lt.mp h, by simp⟩

/-- What the code reads: like `tableAt`, but 0 follows the last sample. -/
noncomputable def rawAt (table : List ℝ) (x : ℝ) : ℝ :=
  let offset := Int.fract x * table.length
  let i := ⌊offset⌋₊
  (1 - Int.fract offset) * table.getD i 0 + Int.fract offset * table.getD (i + 1) 0

theorem rawAt_eq (table : List ℝ) (x : ℝ) (ht : 0 < table.length) (h0 : table.getD 0 0 = 0) :
    rawAt table x = tableAt table x := by
  unfold rawAt tableAt
  have hlen : (0 : ℝ) < table.length := by exact_mod_cast ht
  have h1 : Int.fract x * table.length < table.length := by
    have := Int.fract_lt_one x
    nlinarith
  have h2 : 0 ≤ Int.fract x * table.length := mul_nonneg (Int.fract_nonneg x) hlen.le
  have h3 : ⌊Int.fract x * table.length⌋₊ < table.length := (Nat.floor_lt h2).mpr h1
  generalize Int.fract x * table.length = o at *
  simp only
  by_cases h : ⌊o⌋₊ + 1 < table.length
  · rw [Nat.mod_eq_of_lt h]
  · have h4 : ⌊o⌋₊ + 1 = table.length := by omega
    rw [h4, Nat.mod_self, h0, getD_none le_rfl]

theorem getValue_ok (o : Oscillator) (x : ℝ) (m : ℕ) (h1 : 0 ≤ o.phase) (h2 : o.phase < 1) (h3 : o.phase + m = x)
    (ht : 0 < o.wavetable.length) : o.getValue = .ok (rawAt o.wavetable x) := by
  have hf : Int.fract x = o.phase := by
    rw [← h3, Int.fract_add_natCast, Int.fract_eq_self]
    exact ⟨h1, h2⟩
  have hlen : (0 : ℝ) < o.wavetable.length := by exact_mod_cast ht
  have h4 : 0 ≤ o.phase * o.wavetable.length := mul_nonneg h1 hlen.le
  have h5 : o.phase * o.wavetable.length < o.wavetable.length := by nlinarith
  unfold getValue rawAt
  simp only [hf]
  generalize ho : o.phase * o.wavetable.length = v at *
  have h6 : ⌊v⌋₊ < o.wavetable.length := (Nat.floor_lt h4).mpr h5
  rw [index_ok h6]
  have hfr : v - (⌊v⌋ : ℝ) = Int.fract v := rfl
  by_cases hi : Int.fract v = 0
  · simp only [step_ok, hfr, hi]
    by_cases hl : ⌈v⌉₊ < o.wavetable.length
    · rw [if_pos hl, index_ok hl]
      show Except.ok _ = _
      rw [interpolate, getD_some h6]
      simp
    · rw [if_neg hl]
      show Except.ok _ = _
      rw [interpolate, getD_some h6]
      simp
  · have hc : ⌈v⌉₊ = ⌊v⌋₊ + 1 := by
      apply le_antisymm (Nat.ceil_le_floor_add_one v)
      rw [Nat.succ_le_iff, Nat.lt_ceil]
      have h7 : (⌊v⌋₊ : ℝ) = ⌊v⌋ := natCast_floor_eq_intCast_floor h4
      have := Int.fract_nonneg v
      have h8 : 0 < Int.fract v := lt_of_le_of_ne this (Ne.symm hi)
      rw [← hfr] at h8
      rw [h7]
      linarith
    rw [hc]
    simp only [step_ok]
    by_cases hl : ⌊v⌋₊ + 1 < o.wavetable.length
    · rw [if_pos hl, index_ok hl]
      show Except.ok _ = _
      rw [hfr, interpolate, getD_some h6, getD_some hl]
    · rw [if_neg hl]
      show Except.ok _ = _
      rw [hfr, interpolate, getD_some h6, getD_none (not_lt.mp hl)]

theorem getValue_panics (o : Oscillator) (h : o.phase = 1) : o.getValue = .error .panic := by
  unfold getValue
  simp only [h, one_mul, Nat.floor_natCast]
  have : index o.wavetable o.wavetable.length = .error .panic := by simp [index]
  rw [this]
  rfl

/-- The phase is the part of the cycles gone by after the last whole one. -/
def AtCycle (x : ℝ) (o : Oscillator) : Prop := 0 ≤ o.phase ∧ o.phase ≤ 1 ∧ ∃ m : ℕ, o.phase + m = x

theorem step_cases (fuel sampleRate : Nat) (o : Oscillator) (x frequency : ℝ) (ho : AtCycle x o)
    (ht : 0 < o.wavetable.length) (hf : 0 < frequency / sampleRate) (hfuel : frequency / sampleRate + 1 < fuel) :
    ∃ o', o.incrementPhase fuel frequency sampleRate = .ok o' ∧ AtCycle (x + frequency / sampleRate) o' ∧
      o'.wavetable = o.wavetable ∧
      (Whole (x + frequency / sampleRate) → o'.getValue = .error .panic) ∧
      (¬ Whole (x + frequency / sampleRate) → o'.getValue = .ok (rawAt o.wavetable (x + frequency / sampleRate))) := by
  obtain ⟨h1, h2, m, h3⟩ := ho
  obtain ⟨k, p, e1, e2, e3, e4⟩ := wrap_ok fuel (o.phase + frequency / sampleRate) (by linarith) (by linarith)
  have hx : p + (k + m : ℕ) = x + frequency / sampleRate := by push_cast; linarith
  refine ⟨{ o with phase := p }, ?_, ⟨e2.le, e3, k + m, hx⟩, rfl, ?_, ?_⟩
  · unfold incrementPhase
    rw [e1]
    rfl
  · rintro ⟨n, hn⟩
    apply getValue_panics
    show p = 1
    rw [← hx] at hn
    have h5 : ((k + m : ℕ) : ℝ) < n := by linarith
    have h6 : k + m + 1 ≤ n := by exact_mod_cast h5
    have h7 : ((k + m : ℕ) : ℝ) + 1 ≤ n := by exact_mod_cast h6
    linarith
  · intro hn
    refine getValue_ok _ _ (k + m) e2.le ?_ hx ht
    refine lt_of_le_of_ne e3 ?_
    rintro (rfl : p = 1)
    exact hn ⟨k + m + 1, by rw [← hx]; push_cast; ring⟩

theorem cycles_succ (frequency : ℕ → ℝ) (sampleRate t : ℕ) :
    cycles frequency sampleRate (t + 1) = cycles frequency sampleRate t + frequency t / sampleRate :=
  Finset.sum_range_succ _ _

theorem fill_cases (fuel sampleRate : Nat) (frequency : ℕ → ℝ) (hf : ∀ t, 0 < frequency t / sampleRate)
    (hfuel : ∀ t, frequency t / sampleRate + 1 < fuel) (data : List ℝ) :
    ∀ (frequencies : List ℝ) (t : ℕ) (o : Oscillator), AtCycle (cycles frequency sampleRate t) o →
      0 < o.wavetable.length → frequencies.length = data.length →
      (∀ f < data.length, frequencies[f]? = some (frequency (t + f))) →
      ((∃ f < data.length, Whole (cycles frequency sampleRate (t + f + 1))) →
        fill fuel sampleRate o data frequencies = .error .panic) ∧
      ((∀ f < data.length, ¬ Whole (cycles frequency sampleRate (t + f + 1))) →
        ∃ o' values, fill fuel sampleRate o data frequencies = .ok (o', values) ∧
          AtCycle (cycles frequency sampleRate (t + data.length)) o' ∧ o'.wavetable = o.wavetable ∧
          values.length = data.length ∧
          ∀ f < data.length, values[f]? = some (rawAt o.wavetable (cycles frequency sampleRate (t + f + 1)))) := by
  induction data with
  | nil =>
    intro fs t o ho _ hl _
    obtain rfl : fs = [] := List.length_eq_zero_iff.mp hl
    exact ⟨fun ⟨f, h, _⟩ => by simp at h, fun _ => ⟨o, [], rfl, ho, rfl, rfl, fun f h => by simp at h⟩⟩
  | cons d data ih =>
    intro fs t o ho ht hl hfs
    obtain ⟨a, fs, rfl⟩ : ∃ a fs', fs = a :: fs' := by
      cases fs with
      | nil => simp at hl
      | cons a fs => exact ⟨a, fs, rfl⟩
    have ha : a = frequency t := by simpa using hfs 0 (by simp)
    subst ha
    obtain ⟨o', e1, e2, e3, e4, e5⟩ := step_cases fuel sampleRate o _ _ ho ht (hf t) (hfuel t)
    rw [← cycles_succ] at e2 e4 e5
    rw [← e3] at ht
    obtain ⟨i1, i2⟩ := ih fs (t + 1) o' e2 ht (by simpa using hl) (fun f h => by
      have := hfs (f + 1) (by simpa using h)
      rw [List.getElem?_cons_succ] at this
      rw [this, show t + (f + 1) = t + 1 + f by omega])
    simp only [fill, e1, step_ok]
    by_cases hw : Whole (cycles frequency sampleRate (t + 1))
    · rw [e4 hw]
      exact ⟨fun _ => rfl, fun h => absurd hw (h 0 (by simp))⟩
    · rw [e5 hw]
      simp only [step_ok]
      constructor
      · rintro ⟨f, h1, h2⟩
        cases f with
        | zero => exact absurd h2 hw
        | succ f =>
          rw [i1 ⟨f, by simpa using h1, by rwa [show t + 1 + f + 1 = t + (f + 1) + 1 by omega]⟩]
          rfl
      · intro h
        obtain ⟨o'', vs, c1, c2, c3, c4, c5⟩ := i2 (fun f hf => by
          have := h (f + 1) (by simpa using hf)
          rwa [show t + (f + 1) + 1 = t + 1 + f + 1 by omega] at this)
        refine ⟨o'', rawAt o.wavetable (cycles frequency sampleRate (t + 1)) :: vs, ?_, ?_, c3.trans e3, by simp [c4], ?_⟩
        · rw [c1]
          rfl
        · rwa [List.length_cons, show t + (data.length + 1) = t + 1 + data.length by omega]
        · intro f hf
          cases f with
          | zero => rfl
          | succ f =>
            rw [List.getElem?_cons_succ, c5 f (by simpa using hf), e3, show t + 1 + f + 1 = t + (f + 1) + 1 by omega]

theorem duplicate_all (b : Buf ℝ) (hw : b.WF) (hm : b.Writable) (hc : 0 < b.channelCount) (n : ℕ)
    (hn : n + 1 ≤ b.channelCount) :
    ∃ b', (List.range' 1 n).foldlM (fun (output : Buf ℝ) channel =>
        output.duplicateChannel (Loc.ofChannel 0) channel output.frameCount) b = .ok b' ∧ b.SameShape b' ∧ b'.WF ∧
      b'.Writable ∧ ∀ c f, c < n + 1 → f < b.frameCount → b'.sample? c f = b.sample? 0 f := by
  induction n with
  | zero =>
    exact ⟨b, rfl, SameShape.refl _, hw, hm, fun c f h _ => by obtain rfl : c = 0 := by omega
                                                               rfl⟩
  | succ n ih =>
    obtain ⟨b', e1, e2, e3, e4, e5⟩ := ih (by omega)
    have hcc := e2.channelCount
    have hfc := e2.frameCount
    obtain ⟨b'', c1, c2, c3, c4, c5⟩ := duplicateChannel_spec b' e3 e4 (Loc.ofChannel 0) (1 + n) b'.frameCount
      (by simp only [Loc.ofChannel]; omega) (by omega) (by simp [Loc.ofChannel])
    refine ⟨b'', ?_, e2.trans c2, c3, c4, ?_⟩
    · rw [List.range'_concat, List.foldlM_append, e1]
      simp only [step_ok, List.foldlM_cons, List.foldlM_nil, one_mul]
      rw [c1]
      rfl
    · intro c f h1 h2
      rw [c5]
      simp only [Loc.ofChannel, Nat.zero_le, true_and, Nat.zero_add]
      by_cases h : c = 1 + n
      · rw [if_pos ⟨h, by omega⟩, e5 0 f (by omega) h2]
      · rw [if_neg (by tauto), e5 c f (by omega) h2]

theorem block_cases (isZero isOne : ℝ → Bool) (hz : ∀ x, isZero x = true → x = 0) (hone : ∀ x, isOne x = true → x = 1)
    (fuel sampleRate : Nat) (frequency gain : ℕ → ℝ) (hf : ∀ t, 0 < frequency t / sampleRate)
    (hfuel : ∀ t, frequency t / sampleRate + 1 < fuel) (t : ℕ) (o : Oscillator)
    (ho : AtCycle (cycles frequency sampleRate t) o) (ht : 0 < o.wavetable.length) (b : OscBlock)
    (hb : b.Carries sampleRate frequency gain t) :
    ((∃ f < b.output.frameCount, Whole (cycles frequency sampleRate (t + f + 1))) →
      o.processAudio isZero isOne b.al fuel b.frequency b.gain b.output = .error .panic) ∧
    ((∀ f < b.output.frameCount, ¬ Whole (cycles frequency sampleRate (t + f + 1))) →
      ∃ o' out, o.processAudio isZero isOne b.al fuel b.frequency b.gain b.output = .ok (o', out) ∧
        AtCycle (cycles frequency sampleRate (t + b.output.frameCount)) o' ∧ o'.wavetable = o.wavetable ∧
        b.output.SameShape out ∧
        ∀ f < b.output.frameCount, ∀ c < b.output.channelCount, out.sample? c f =
          some (rawAt o.wavetable (cycles frequency sampleRate (t + f + 1)) * gain (t + f))) := by
  obtain ⟨b1, b2, b3, b4, b5, b6, b7⟩ := hb
  obtain ⟨l, l1, l2, l3⟩ := channelData_spec b.output b1 (Loc.ofChannel 0) b3 (Nat.zero_le _)
  simp only [Loc.ofChannel, Nat.sub_zero] at l2
  obtain ⟨f1, f2⟩ := fill_cases fuel sampleRate frequency hf hfuel l b.frequency t o ho ht (by omega)
    (fun f h => (b7 f (by omega)).1)
  rw [l2] at f1 f2
  unfold processAudio
  rw [l1, b4]
  simp only [step_ok]
  constructor
  · intro h
    rw [f1 h]
    rfl
  · intro h
    obtain ⟨o', values, e1, e2, e3, e4, e5⟩ := f2 h
    obtain ⟨m, m1, m2, m3, m4, m5⟩ := modifyChannel_spec b.output b1 b2 (Loc.ofChannel 0) b3 (Nat.zero_le _)
      (fun _ => .ok values) l values l1 rfl (by omega)
    have hcc := m2.channelCount
    have hfc := m2.frameCount
    obtain ⟨g, g1, g2, g3, g4, g5⟩ := C36_apply_gain isZero isOne hz hone b.al m b.gain m3 m4 (by omega)
    have hcc2 := g2.channelCount
    have hfc2 := g2.frameCount
    obtain ⟨d, d1, d2, d3, d4, d5⟩ := duplicate_all g g3 g4 (by omega) (g.channelCount - 1) (by omega)
    refine ⟨o', d, ?_, e2, e3, (m2.trans g2).trans d2, ?_⟩
    · rw [e1]
      simp only [step_ok]
      rw [m1]
      simp only [step_ok]
      rw [g1]
      simp only [step_ok]
      rw [d1]
      rfl
    · intro f h1 c h2
      rw [d5 c f (by omega) (by omega), g5 0 f (by omega) (by omega), m5, if_pos ⟨rfl, Nat.zero_le _, h1⟩]
      simp only [Loc.ofChannel, Nat.sub_zero]
      rw [e5 f h1, (b7 f h1).2]
      rfl

theorem blocks_cases (isZero isOne : ℝ → Bool) (hz : ∀ x, isZero x = true → x = 0) (hone : ∀ x, isOne x = true → x = 1)
    (fuel sampleRate : Nat) (frequency gain : ℕ → ℝ) (hf : ∀ t, 0 < frequency t / sampleRate)
    (hfuel : ∀ t, frequency t / sampleRate + 1 < fuel) (blocks : List OscBlock) :
    ∀ (t : ℕ) (o : Oscillator), AtCycle (cycles frequency sampleRate t) o → 0 < o.wavetable.length →
    AllCarry sampleRate frequency gain t blocks →
    ((∃ f < frames blocks, Whole (cycles frequency sampleRate (t + f + 1))) →
      o.processAll isZero isOne fuel (blocks.map (fun b => (b.frequency, b.gain, b.output, b.al))) = .error .panic) ∧
    ((∀ f < frames blocks, ¬ Whole (cycles frequency sampleRate (t + f + 1))) →
      ∃ o' outs, o.processAll isZero isOne fuel (blocks.map (fun b => (b.frequency, b.gain, b.output, b.al))) =
          .ok (o', outs) ∧
        Plays (fun t v => v = rawAt o.wavetable (cycles frequency sampleRate (t + 1)) * gain t) t blocks outs) := by
  induction blocks with
  | nil =>
    intro t o _ _ _
    exact ⟨fun ⟨f, h, _⟩ => by simp [frames] at h, fun _ => ⟨o, [], rfl, trivial⟩⟩
  | cons b bs ih =>
    intro t o ho ht hb
    have hfr : frames (b :: bs) = b.output.frameCount + frames bs := by simp [frames]
    obtain ⟨e1, e2⟩ := block_cases isZero isOne hz hone fuel sampleRate frequency gain hf hfuel t o ho ht b hb.1
    rw [List.map_cons, processAll]
    by_cases h : ∃ f < b.output.frameCount, Whole (cycles frequency sampleRate (t + f + 1))
    · rw [e1 h]
      refine ⟨fun _ => rfl, fun h' => ?_⟩
      obtain ⟨f, h1, h2⟩ := h
      exact absurd h2 (h' f (by omega))
    · push Not at h
      obtain ⟨o', out, c1, c2, c3, c4, c5⟩ := e2 h
      rw [c1]
      simp only [step_ok]
      obtain ⟨i1, i2⟩ := ih (t + b.output.frameCount) o' c2 (by rw [c3]; exact ht) hb.2
      constructor
      · rintro ⟨f, h1, h2⟩
        by_cases hlt : f < b.output.frameCount
        · exact absurd h2 (h f hlt)
        · rw [i1 ⟨f - b.output.frameCount, by omega, by
            rwa [show t + b.output.frameCount + (f - b.output.frameCount) + 1 = t + f + 1 by omega]⟩]
          rfl
      · intro h'
        obtain ⟨o'', outs, p1, p2⟩ := i2 (fun f hf => by
          have := h' (b.output.frameCount + f) (by omega)
          rwa [← Nat.add_assoc] at this)
        refine ⟨o'', out :: outs, by rw [p1]; rfl, ⟨c4, fun f hf => ⟨_, rfl, fun c hc => c5 f hf c hc⟩⟩, ?_⟩
        rw [c3] at p2
        exact p2

theorem plays_mono {P Q : ℕ → ℝ → Prop} (h : ∀ t v, P t v → Q t v) (blocks : List OscBlock) :
    ∀ (t : ℕ) (outs : List (Buf ℝ)), Plays P t blocks outs → Plays Q t blocks outs := by
  induction blocks with
  | nil =>
    intro t outs hp
    cases outs with
    | nil => trivial
    | cons o os => exact hp
  | cons b bs ih =>
    intro t outs hp
    cases outs with
    | nil => exact hp
    | cons o os =>
      refine ⟨⟨hp.1.1, fun f hf => ?_⟩, ih _ _ hp.2⟩
      obtain ⟨v, h1, h2⟩ := hp.1.2 f hf
      exact ⟨v, h _ _ h1, h2⟩

/-- A line between two points of a sine stays close to the sine. -/
theorem sine_chord (a h w : ℝ) (hw : 0 ≤ w ∧ w ≤ 1) :
    |(1 - w) * Real.sin a + w * Real.sin (a + h) - Real.sin (a + w * h)| ≤ h ^ 2 / 8 := by
  have d1 : ∀ x : ℝ, HasDerivAt (fun x => x ^ 2 / 2 + Real.sin x) (x + Real.cos x) x := fun x => by
    have := ((hasDerivAt_pow 2 x).div_const 2).add (Real.hasDerivAt_sin x)
    exact this.congr_deriv (by norm_num)
  have d2 : ∀ x : ℝ, HasDerivAt (fun x => x ^ 2 / 2 - Real.sin x) (x - Real.cos x) x := fun x => by
    have := ((hasDerivAt_pow 2 x).div_const 2).sub (Real.hasDerivAt_sin x)
    exact this.congr_deriv (by norm_num)
  have m1 : Monotone (fun x : ℝ => x + Real.cos x) := by
    apply monotone_of_deriv_nonneg
    · fun_prop
    · intro x
      have : HasDerivAt (fun x : ℝ => x + Real.cos x) (1 + -Real.sin x) x := (hasDerivAt_id x).add (Real.hasDerivAt_cos x)
      rw [this.deriv]
      linarith [Real.sin_le_one x]
  have m2 : Monotone (fun x : ℝ => x - Real.cos x) := by
    apply monotone_of_deriv_nonneg
    · fun_prop
    · intro x
      have : HasDerivAt (fun x : ℝ => x - Real.cos x) (1 - -Real.sin x) x := (hasDerivAt_id x).sub (Real.hasDerivAt_cos x)
      rw [this.deriv]
      linarith [Real.neg_one_le_sin x]
  have c1 : ConvexOn ℝ Set.univ (fun x : ℝ => x ^ 2 / 2 + Real.sin x) := by
    apply Monotone.convexOn_univ_of_deriv (fun x => (d1 x).differentiableAt)
    rwa [show deriv (fun x : ℝ => x ^ 2 / 2 + Real.sin x) = fun x => x + Real.cos x from funext fun x => (d1 x).deriv]
  have c2 : ConvexOn ℝ Set.univ (fun x : ℝ => x ^ 2 / 2 - Real.sin x) := by
    apply Monotone.convexOn_univ_of_deriv (fun x => (d2 x).differentiableAt)
    rwa [show deriv (fun x : ℝ => x ^ 2 / 2 - Real.sin x) = fun x => x - Real.cos x from funext fun x => (d2 x).deriv]
  have k1 := c1.2 (Set.mem_univ a) (Set.mem_univ (a + h)) (sub_nonneg.mpr hw.2) hw.1 (by ring)
  have k2 := c2.2 (Set.mem_univ a) (Set.mem_univ (a + h)) (sub_nonneg.mpr hw.2) hw.1 (by ring)
  simp only [smul_eq_mul] at k1 k2
  rw [show (1 - w) * a + w * (a + h) = a + w * h by ring] at k1 k2
  have h4 : w * (1 - w) * h ^ 2 ≤ h ^ 2 / 4 := by nlinarith [sq_nonneg h, sq_nonneg (2 * w - 1), mul_nonneg (sq_nonneg h) (sq_nonneg (2 * w - 1))]
  rw [abs_le]
  constructor <;> nlinarith

/-- The sum of the harmonics from index `n` on. -/
noncomputable def hsum : ℕ → List Level → ℝ → ℝ
  | _, [], _ => 0
  | n, l :: ls, x => l.linear * Real.sin (2 * Real.pi * (n + 1) * x) + hsum (n + 1) ls x

/-- How far a table of `N` samples may be from the sum. -/
noncomputable def herr (N : ℝ) : ℕ → List Level → ℝ
  | _, [] => 0
  | n, l :: ls => |l.linear| * ((2 * Real.pi * (n + 1) / N) ^ 2 / 8) + herr N (n + 1) ls

theorem hsum_eq (levels : List Level) (x : ℝ) : ∀ n : ℕ, hsum n levels x =
    ∑ k ∈ Finset.range levels.length, (levels.getD k ⟨0⟩).linear * Real.sin (2 * Real.pi * ((n + k : ℕ) + 1) * x) := by
  induction levels with
  | nil => intro n; rfl
  | cons l ls ih =>
    intro n
    rw [hsum, ih, List.length_cons, Finset.sum_range_succ', add_comm]
    simp [Nat.add_assoc, Nat.add_comm 1, add_assoc, add_comm (1 : ℝ)]

theorem herr_eq (levels : List Level) (N : ℝ) : ∀ n : ℕ, herr N n levels =
    ∑ k ∈ Finset.range levels.length, |(levels.getD k ⟨0⟩).linear| * ((2 * Real.pi * ((n + k : ℕ) + 1) / N) ^ 2 / 8) := by
  induction levels with
  | nil => intro n; rfl
  | cons l ls ih =>
    intro n
    rw [herr, ih, List.length_cons, Finset.sum_range_succ', add_comm]
    simp [Nat.add_assoc, Nat.add_comm 1, add_assoc, add_comm (1 : ℝ)]

theorem hsum_periodic (levels : List Level) (x : ℝ) (m : ℤ) : ∀ n : ℕ, hsum n levels (x + m) = hsum n levels x := by
  induction levels with
  | nil => intro n; rfl
  | cons l ls ih =>
    intro n
    rw [hsum, hsum, ih, show 2 * Real.pi * ((n : ℝ) + 1) * (x + m) =
      2 * Real.pi * (n + 1) * x + (((n : ℤ) + 1) * m : ℤ) * (2 * Real.pi) by push_cast; ring, Real.sin_add_int_mul_two_pi]

theorem hsum_zero (levels : List Level) : ∀ n : ℕ, hsum n levels 0 = 0 := by
  induction levels with
  | nil => intro n; rfl
  | cons l ls ih => intro n; rw [hsum, ih]; simp

theorem hsum_chord (levels : List Level) (N i w : ℝ) (hw : 0 ≤ w ∧ w ≤ 1) : ∀ n : ℕ,
    |(1 - w) * hsum n levels (i / N) + w * hsum n levels ((i + 1) / N) - hsum n levels ((i + w) / N)| ≤ herr N n levels := by
  induction levels with
  | nil => intro n; simp [hsum, herr]
  | cons l ls ih =>
    intro n
    rw [hsum, hsum, hsum, herr]
    have h1 := sine_chord (2 * Real.pi * (n + 1) * (i / N)) (2 * Real.pi * (n + 1) / N) w hw
    rw [show 2 * Real.pi * ((n : ℝ) + 1) * (i / N) + 2 * Real.pi * (n + 1) / N = 2 * Real.pi * (n + 1) * ((i + 1) / N) by ring,
      show 2 * Real.pi * ((n : ℝ) + 1) * (i / N) + w * (2 * Real.pi * (n + 1) / N) = 2 * Real.pi * (n + 1) * ((i + w) / N)
        by ring] at h1
    generalize Real.sin (2 * Real.pi * ((n : ℝ) + 1) * (i / N)) = s1 at *
    generalize Real.sin (2 * Real.pi * ((n : ℝ) + 1) * ((i + 1) / N)) = s2 at *
    generalize Real.sin (2 * Real.pi * ((n : ℝ) + 1) * ((i + w) / N)) = s3 at *
    have h2 := ih (n + 1)
    generalize hsum (n + 1) ls (i / N) = u1 at *
    generalize hsum (n + 1) ls ((i + 1) / N) = u2 at *
    generalize hsum (n + 1) ls ((i + w) / N) = u3 at *
    rw [show (1 - w) * (l.linear * s1 + u1) + w * (l.linear * s2 + u2) - (l.linear * s3 + u3) =
      l.linear * ((1 - w) * s1 + w * s2 - s3) + ((1 - w) * u1 + w * u2 - u3) by ring]
    refine (abs_add_le _ _).trans (add_le_add ?_ h2)
    rw [abs_mul]
    exact mul_le_mul_of_nonneg_left h1 (abs_nonneg _)

theorem makeSine_length (N h : ℕ) : (makeSine N h).length = N := by simp [makeSine]

theorem makeSine_get (N h i : ℕ) (hi : i < N) :
    (makeSine N h)[i]? = some (Real.sin (2 * Real.pi * ((h : ℝ) * i / N))) := by
  simp [makeSine, hi]

theorem addHarmonics_get (levels : List Level) : ∀ (n : ℕ) (w : List ℝ), w.length = tableSize →
    (addHarmonics n levels w).length = tableSize ∧ ∀ i < tableSize, (addHarmonics n levels w).getD i 0 =
      w.getD i 0 + hsum n levels ((i : ℝ) / tableSize) := by
  induction levels with
  | nil => intro n w hw; exact ⟨hw, fun i _ => by simp [addHarmonics, hsum]⟩
  | cons l ls ih =>
    intro n w hw
    have hl : (Kernels.zipInto (fun h w => w + h * l.linear) (makeSine tableSize (n + 1)) w).length = tableSize := by
      rw [Kernels.length_zipInto, hw]
    obtain ⟨h1, h2⟩ := ih (n + 1) _ hl
    refine ⟨h1, fun i hi => ?_⟩
    rw [addHarmonics, h2 i hi, hsum, List.getD_eq_getElem?_getD, List.getD_eq_getElem?_getD,
      Kernels.zipInto_get _ _ _ (by rw [makeSine_length, hw]) i (by rw [hw]; exact hi),
      List.getElem?_eq_getElem (by rw [hw]; exact hi)]
    have hs : (makeSine tableSize (n + 1))[i]'(by rw [makeSine_length]; exact hi) =
        Real.sin (2 * Real.pi * (((n + 1 : ℕ) : ℝ) * i / tableSize)) := by
      have := makeSine_get tableSize (n + 1) i hi
      rwa [List.getElem?_eq_getElem (by rw [makeSine_length]; exact hi), Option.some_inj] at this
    simp only [Option.getD_some]
    rw [hs]
    rw [show 2 * Real.pi * (((n + 1 : ℕ) : ℝ) * i / tableSize) = 2 * Real.pi * ((n : ℝ) + 1) * (i / tableSize) by
      push_cast; ring]
    ring

theorem tableAt_near (table : List ℝ) (levels : List Level) (hl : 0 < table.length)
    (h : ∀ i < table.length, table.getD i 0 = hsum 0 levels ((i : ℝ) / table.length)) (x : ℝ) :
    |tableAt table x - hsum 0 levels x| ≤ herr table.length 0 levels := by
  have hlen : (0 : ℝ) < table.length := by exact_mod_cast hl
  have h1 : Int.fract x * table.length < table.length := by
    have := Int.fract_lt_one x
    nlinarith
  have h2 : 0 ≤ Int.fract x * table.length := mul_nonneg (Int.fract_nonneg x) hlen.le
  have h3 : ⌊Int.fract x * table.length⌋₊ < table.length := (Nat.floor_lt h2).mpr h1
  unfold tableAt
  have hx : hsum 0 levels x = hsum 0 levels (Int.fract x) := by
    have := hsum_periodic levels (Int.fract x) ⌊x⌋ 0
    rwa [Int.fract_add_floor] at this
  have hfr : ((⌊Int.fract x * table.length⌋₊ : ℝ) + Int.fract (Int.fract x * table.length)) / table.length = Int.fract x := by
    rw [natCast_floor_eq_intCast_floor h2, Int.floor_add_fract]
    field_simp
  have hnext : table.getD ((⌊Int.fract x * table.length⌋₊ + 1) % table.length) 0 =
      hsum 0 levels (((⌊Int.fract x * table.length⌋₊ : ℝ) + 1) / table.length) := by
    by_cases hlt : ⌊Int.fract x * table.length⌋₊ + 1 < table.length
    · rw [Nat.mod_eq_of_lt hlt, h _ hlt]
      push_cast
      rfl
    · have h4 : ⌊Int.fract x * table.length⌋₊ + 1 = table.length := by omega
      have h5 : (⌊Int.fract x * table.length⌋₊ : ℝ) + 1 = table.length := by exact_mod_cast h4
      rw [h4, Nat.mod_self, h5, div_self hlen.ne', h 0 hl]
      have := hsum_periodic levels 0 1 0
      simp only [Int.cast_one, zero_add] at this
      rw [this]
      simp
  simp only
  have := hsum_chord levels table.length ⌊Int.fract x * table.length⌋₊ (Int.fract (Int.fract x * table.length))
    ⟨Int.fract_nonneg _, (Int.fract_lt_one _).le⟩ 0
  rw [hfr] at this
  rwa [h _ h3, hnext, hx]

end Oscillator
end Rawdio
