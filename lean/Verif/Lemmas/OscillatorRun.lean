import Mathlib.Data.List.GetD
import Mathlib.NumberTheory.Real.Irrational
import Verif.Lemmas.EffectCancel
import Verif.Lemmas.EffectRun

/-! # Oscillators that never fail -/

namespace Rawdio
namespace Fx

variable {N : Platform} {sr mf : Nat}

theorem cycles_const (f : ℝ) (sr t : ℕ) : Oscillator.cycles (fun _ => f) sr t = f * t / sr := by
  rw [Oscillator.cycles, Finset.sum_const, Finset.card_range, nsmul_eq_mul]
  ring

/-- The states of oscillators whose frequency stays the same, and never brings them to a whole number of cycles. -/
structure Steady (sr : Nat) (d : Dsp FxNode) : Prop where
  inputs : d.state.inputCount = d.inputCount
  outputs : d.state.outputCount = d.outputCount
  some_output : 0 < d.outputCount
  at_cycle : ∃ (o : Oscillator) (f : ℝ) (t : ℕ) (p q : RealtimeParameter ℝ), d.state.processor = .oscillator o ∧
    0 < o.wavetable.length ∧ 0 < f ∧ (∀ n : ℕ, ¬ Oscillator.Whole (f * (n + 1 : ℕ) / sr)) ∧
    Oscillator.AtCycle (f * t / sr) o ∧ d.state.parameters.get? "frequency" = some p ∧ Quiet f (fun _ => True) p ∧
    d.state.parameters.get? "gain" = some q

theorem steady_block (hz : ∀ x, N.isZero x = true → x = 0) (ho : ∀ x, N.isOne x = true → x = 1) (hsr : 0 < sr)
    {d : Dsp FxNode} (hd : Steady sr d) {m : Nat} (t : Int) (w : Nat → Nat → ℝ) :
    ∃ y s, (ops N).run d.state ⟨m, sr, t, window d.inputCount m w, window d.outputCount m silence⟩ = .ok (y, s) ∧
      Steady sr { d with state := s } := by
  obtain ⟨h1, h2, h3, o, f, n, p, q, a1, a2, a3, a4, a5, a6, a7, a8⟩ := hd
  have hsr' : (0 : ℝ) < sr := by exact_mod_cast hsr
  obtain ⟨ps, hps⟩ : ∃ ps, ps = HMap.mapVals d.state.parameters fun p => p.process realArith t m sr := ⟨_, rfl⟩
  have hp : ps.get? "frequency" = some (List.replicate m f, p) := by
    rw [hps, HMap.get?_mapVals, a6, Option.map_some, a7.process sr fun _ _ => trivial]
  have hq : ps.get? "gain" = some (q.process realArith t m sr) := by
    rw [hps, HMap.get?_mapVals, a8, Option.map_some]
  obtain ⟨F, hF⟩ := exists_nat_gt (f / sr + 1)
  have hlen : (q.process realArith t m sr).1.length = m := RealtimeParameter.process_length ..
  obtain ⟨o', out, e1, e2, e3, e4, _⟩ := (Oscillator.block_cases N.isZero N.isOne hz ho F sr (fun _ => f)
    (fun i => (q.process realArith t m sr).1.getD (i - n) 0) (fun _ => div_pos a3 hsr') (fun _ => hF) n o
    (by rw [cycles_const]; exact a5) a2
    ⟨List.replicate m f, (q.process realArith t m sr).1,
      buffer d.state.outputCount m sr (window d.outputCount m silence), N.gains t⟩
    ⟨buffer_wf .., trivial, by simpa [buffer, Buf.channelCount, h2] using h3, rfl, by simp [buffer, Buf.frameCount],
      by simpa [buffer, Buf.frameCount] using hlen, by
        intro i hi
        have hi : i < m := hi
        constructor
        · simp [hi]
        · dsimp only
          rw [Nat.add_sub_cancel_left, List.getD_eq_getElem?_getD, List.getElem?_eq_getElem (by omega)]
          rfl⟩).2 (by
      intro i _
      rw [cycles_const]
      exact a4 _)
  refine ⟨fun c f => (out.view c f).getD 0, { d.state with processor := .oscillator o', parameters := ps.mapVals Prod.snd },
    ?_, h1, h2, h3, o', f, n + m, p, (q.process realArith t m sr).2, rfl, by rw [e3]; exact a2, a3, a4, ?_, ?_, a7, ?_⟩
  · simp only [ops, run]
    rw [← hps, a1]
    have hu : (unbounded fun fuel => o.processAudio N.isZero N.isOne (N.gains t) fuel (List.replicate m f)
        (q.process realArith t m sr).1 (buffer d.state.outputCount m sr (window d.outputCount m silence))) = .ok (o', out) :=
      unbounded_of (f := F) (x := (o', out))
        (fun f x h g => by rw [Nat.add_comm]; exact Oscillator.processAudio_mono g h) e1
    simp only [processAudio, values, hp, hq, bind, Except.bind, hu]
    rfl
  · rw [cycles_const] at e2
    exact e2
  · simp only
    rw [HMap.get?_mapVals, hp]
    rfl
  · simp only
    rw [HMap.get?_mapVals, hq]
    rfl

/-- Oscillators like this, next to nodes that render all blocks. -/
theorem steady_healthy (hz : ∀ x, N.isZero x = true → x = 0) (ho : ∀ x, N.isOne x = true → x = 1) (hsr : 0 < sr)
    {I : Dsp FxNode → Prop} {A : Id → ParameterRequest → Prop} (H : Healthy (ops N) mf sr I A) (O : Id → Prop) :
    Healthy (ops N) mf sr (fun d => I d ∨ (O d.id ∧ Steady sr d)) (fun i r => A i r ∧ (O i → r.name = "gain")) where
  run := by
    rintro d n t x (hd | ⟨_, hd⟩) h1 h2
    · exact H.run d n t x hd h1 h2
    · obtain ⟨y, s, h, _⟩ := steady_block hz ho hsr hd t x
      exact ⟨y, s, h⟩
  keeps := by
    rintro d n t x y s (hd | ⟨hO, hd⟩) h1 h2 h
    · exact .inl (H.keeps d n t x y s hd h1 h2 h)
    · obtain ⟨y', s', h', h3⟩ := steady_block hz ho hsr hd t x
      rw [h] at h'
      cases h'
      exact .inr ⟨hO, h3⟩
  change := by
    rintro d r (hd | ⟨hO, hd⟩) ⟨hA, hr⟩
    · obtain ⟨s, h1, h2⟩ := H.change d r hd hA
      exact ⟨s, h1, .inl h2⟩
    · obtain ⟨h1, h2, h3, o, f, n, p, q, a1, a2, a3, a4, a5, a6, a7, a8⟩ := hd
      have hr := hr hO
      refine ⟨{ d.state with parameters := d.state.parameters.update r.name r.apply }, ?_, .inr ⟨hO, h1, h2, h3, o, f, n, p,
        r.apply q, a1, a2, a3, a4, a5, ?_, a7, ?_⟩⟩
      · simp only [ops, change, hr, a8]
      · simp only [HMap.get?_update]
        rw [hr, if_neg (by decide)]
        exact a6
      · simp only [HMap.get?_update]
        rw [hr, if_pos rfl, a8]
        rfl

/-! ## Oscillators whose frequencies are rational multiples of an irrational one -/

/-- A positive rational multiple of `f`. -/
def Multiple (f x : ℝ) : Prop := ∃ q : ℚ, 0 < q ∧ x = q * f

/-- A parameter that only ever has positive rational multiples of `f` as values. -/
structure InTune (f : ℝ) (p : RealtimeParameter ℝ) : Prop where
  value : Multiple f p.value
  current : Multiple f p.current.value
  increment : p.increment = 0
  coefficient : p.coefficient = 1
  changes : ∀ c ∈ p.changes, c.method = .immediate ∧ Multiple f c.value

theorem inTune_new (f : ℝ) : InTune f (.new realArith f) :=
  ⟨⟨1, one_pos, by simp [RealtimeParameter.new]⟩, ⟨1, one_pos, by simp [RealtimeParameter.new]⟩, rfl, rfl, by simp [RealtimeParameter.new]⟩

theorem InTune.step {f : ℝ} {p : RealtimeParameter ℝ} (h : InTune f p) (sr : Nat) (t : Int) :
    InTune f (RealtimeParameter.step realArith sr p t) := by
  obtain ⟨h1, h2, h3, h4, h5⟩ := h
  have hadv : ∀ q : RealtimeParameter ℝ, Multiple f q.current.value → q.increment = 0 → q.coefficient = 1 →
      Multiple f (RealtimeParameter.advance realArith q t p.value) := by
    intro q c1 c2 c3
    unfold RealtimeParameter.advance
    split
    · exact c1
    · rw [c2, c3]
      simpa [realArith] using h1
  unfold RealtimeParameter.step RealtimeParameter.valueAtTime
  dsimp only
  have hb : ∃ q, RealtimeParameter.begin realArith p t sr p.value = q ∧ Multiple f q.current.value ∧ q.increment = 0 ∧
      q.coefficient = 1 ∧ ∀ c ∈ q.changes, c.method = .immediate ∧ Multiple f c.value := by
    refine ⟨_, rfl, ?_⟩
    unfold RealtimeParameter.begin
    cases hc : p.changes with
    | nil => exact ⟨h2, h3, h4, by rw [hc]; simp⟩
    | cons c rest =>
      rw [hc] at h5
      have hc1 := h5 c (by simp)
      simp only [hc1.1]
      split
      · exact ⟨hc1.2, rfl, rfl, fun x hx => h5 x (by simp [hx])⟩
      · exact ⟨h2, h3, h4, by rw [hc]; exact h5⟩
  obtain ⟨q, e, c1, c2, c3, c4⟩ := hb
  rw [e]
  exact ⟨hadv q c1 c2 c3, c1, c2, c3, c4⟩

theorem InTune.steps {f : ℝ} (sr : Nat) (ts : List Int) : ∀ {p : RealtimeParameter ℝ}, InTune f p →
    (∀ x ∈ (RealtimeParameter.steps realArith sr p ts).1, Multiple f x) ∧
      InTune f (RealtimeParameter.steps realArith sr p ts).2 := by
  induction ts with
  | nil => intro p h; exact ⟨by simp [RealtimeParameter.steps], h⟩
  | cons t ts ih =>
    intro p h
    have h1 := h.step sr t
    obtain ⟨i1, i2⟩ := ih h1
    refine ⟨?_, i2⟩
    intro x hx
    rw [RealtimeParameter.steps, List.mem_cons] at hx
    rcases hx with rfl | hx
    · exact h1.value
    · exact i1 x hx

theorem InTune.process {f : ℝ} {p : RealtimeParameter ℝ} (h : InTune f p) (sr : Nat) (t : Int) (n : Nat) :
    (∀ x ∈ (p.process realArith t n sr).1, Multiple f x) ∧ InTune f (p.process realArith t n sr).2 := by
  cases hs : RealtimeParameter.isStatic realArith p with
  | true =>
    rw [RealtimeParameter.process, if_pos hs]
    refine ⟨?_, h⟩
    intro x hx
    rw [(List.mem_replicate.mp hx).2]
    exact h.value
  | false =>
    rw [RealtimeParameter.process_steps _ _ _ _ _ hs]
    exact h.steps sr _

/-- The requests that keep a frequency a positive rational multiple of `f`. -/
def Keeps (f : ℝ) (r : ParameterRequest) : Prop :=
  (∃ (x : ℝ) (t : Int), Multiple f x ∧ r = .change "frequency" ⟨x, t, .immediate⟩) ∨ ∃ t, r = .cancel "frequency" t

theorem InTune.apply {f : ℝ} {p : RealtimeParameter ℝ} (h : InTune f p) {r : ParameterRequest} (hr : Keeps f r) :
    InTune f (r.apply p) := by
  obtain ⟨h1, h2, h3, h4, h5⟩ := h
  rcases hr with ⟨x, t, hx, rfl⟩ | ⟨t, rfl⟩
  · refine ⟨h1, h2, h3, h4, ?_⟩
    intro c hc
    have hc : c ∈ (p.changes ++ [(⟨x, t, .immediate⟩ : ParameterChange ℝ)]).mergeSort (fun a b => decide (a.endTime ≤ b.endTime)) := hc
    rw [List.mem_mergeSort, List.mem_append, List.mem_singleton] at hc
    rcases hc with hc | rfl
    · exact h5 c hc
    · exact ⟨rfl, hx⟩
  · cases t with
    | none => exact ⟨h1, h2, h3, h4, by simp [ParameterRequest.apply, RealtimeParameter.cancelAll]⟩
    | some t =>
      refine ⟨h1, h2, h3, h4, ?_⟩
      intro c hc
      exact h5 c (List.mem_of_mem_filter hc)

/-- The states of oscillators whose frequency is a positive rational multiple of `f`. -/
structure Tuned (sr : Nat) (f : ℝ) (d : Dsp FxNode) : Prop where
  inputs : d.state.inputCount = d.inputCount
  outputs : d.state.outputCount = d.outputCount
  some_output : 0 < d.outputCount
  at_cycle : ∃ (o : Oscillator) (c : ℚ) (k : ℕ) (p q : RealtimeParameter ℝ), d.state.processor = .oscillator o ∧
    0 < o.wavetable.length ∧ 0 ≤ c ∧ Oscillator.AtCycle (c * f + k) o ∧ d.state.parameters.get? "frequency" = some p ∧
    InTune f p ∧ d.state.parameters.get? "gain" = some q

theorem sum_multiples {f : ℝ} {v : ℕ → ℝ} (n : ℕ) (h : ∀ i < n, Multiple f (v i)) :
    ∃ c : ℚ, 0 ≤ c ∧ (0 < n → 0 < c) ∧ ∑ i ∈ Finset.range n, v i = c * f := by
  induction n with
  | zero => exact ⟨0, le_refl _, by simp, by simp⟩
  | succ n ih =>
    obtain ⟨c, c1, _, c3⟩ := ih fun i hi => h i (by omega)
    obtain ⟨q, q1, q2⟩ := h n (by omega)
    refine ⟨c + q, by positivity, fun _ => by positivity, ?_⟩
    rw [Finset.sum_range_succ, c3, q2]
    push_cast
    ring

theorem tuned_block (hz : ∀ x, N.isZero x = true → x = 0) (ho : ∀ x, N.isOne x = true → x = 1) (hsr : 0 < sr) {f : ℝ}
    (hf : 0 < f) (hirr : Irrational f) {d : Dsp FxNode} (hd : Tuned sr f d) {m : Nat} (t : Int) (w : Nat → Nat → ℝ) :
    ∃ y s, (ops N).run d.state ⟨m, sr, t, window d.inputCount m w, window d.outputCount m silence⟩ = .ok (y, s) ∧
      Tuned sr f { d with state := s } := by
  obtain ⟨h1, h2, h3, o, c, k, p, q, a1, a2, a3, a5, a6, a7, a8⟩ := hd
  have hsr' : (0 : ℝ) < sr := by exact_mod_cast hsr
  obtain ⟨ps, hps⟩ : ∃ ps, ps = HMap.mapVals d.state.parameters fun p => p.process realArith t m sr := ⟨_, rfl⟩
  have hp : ps.get? "frequency" = some (p.process realArith t m sr) := by
    rw [hps, HMap.get?_mapVals, a6, Option.map_some]
  have hq : ps.get? "gain" = some (q.process realArith t m sr) := by
    rw [hps, HMap.get?_mapVals, a8, Option.map_some]
  obtain ⟨pr1, pr2⟩ := a7.process sr t m
  have hlen : (q.process realArith t m sr).1.length = m := RealtimeParameter.process_length ..
  have hlenp : (p.process realArith t m sr).1.length = m := RealtimeParameter.process_length ..
  obtain ⟨fs, hfs⟩ : ∃ fs, fs = (p.process realArith t m sr).1 := ⟨_, rfl⟩
  rw [← hfs] at pr1 hlenp
  have hpos : ∀ x ∈ fs, 0 < x := by
    intro x hx
    obtain ⟨r, r1, r2⟩ := pr1 x hx
    rw [r2]
    have : (0 : ℝ) < r := by exact_mod_cast r1
    positivity
  -- the frequencies, after one frame that brings the phase to where it is
  obtain ⟨v, hv⟩ : ∃ v : ℕ → ℝ, v = fun i => if i = 0 then (c * f + k + 1) * sr else fs.getD (i - 1) f := ⟨_, rfl⟩
  have hc : (0 : ℝ) ≤ c := by exact_mod_cast a3
  have v0 : v 0 = (c * f + k + 1) * sr := by rw [hv]; simp
  have v1 : ∀ i, v (i + 1) = fs.getD i f := by intro i; rw [hv]; simp
  have hvm : ∀ i, Multiple f (v (i + 1)) := by
    intro i
    rw [v1]
    by_cases hi : i < fs.length
    · rw [List.getD_eq_getElem _ _ hi]
      exact pr1 _ (List.getElem_mem hi)
    · rw [List.getD_eq_default _ _ (by omega)]
      exact ⟨1, one_pos, by simp⟩
  have hvp : ∀ i, 0 < v i := by
    intro i
    cases i with
    | zero => rw [v0]; positivity
    | succ i =>
      obtain ⟨r, r1, r2⟩ := hvm i
      rw [r2]
      have : (0 : ℝ) < r := by exact_mod_cast r1
      positivity
  have hbound : ∃ B : ℝ, ∀ i, v i ≤ B := by
    refine ⟨(c * f + k + 1) * sr + f + fs.sum, ?_⟩
    have hsum : 0 ≤ fs.sum := List.sum_nonneg fun x hx => (hpos x hx).le
    have h0 : 0 ≤ (c * f + k + 1) * (sr : ℝ) := by positivity
    intro i
    cases i with
    | zero => rw [v0]; linarith
    | succ i =>
      rw [v1]
      by_cases hi : i < fs.length
      · rw [List.getD_eq_getElem _ _ hi]
        have := List.single_le_sum (l := fs) (fun x hx => (hpos x hx).le) _ (List.getElem_mem hi)
        linarith
      · rw [List.getD_eq_default _ _ (by omega)]
        linarith
  obtain ⟨B, hB⟩ := hbound
  obtain ⟨F, hF⟩ := exists_nat_gt (B / sr + 1)
  have hcyc : ∀ n, ∃ c' : ℚ, 0 ≤ c' ∧ (0 < n → 0 < c') ∧ Oscillator.cycles v sr (n + 1) = c' * f + (k + 1 : ℕ) := by
    intro n
    obtain ⟨b, b1, b2, b3⟩ := sum_multiples (f := f) (v := fun i => v (i + 1)) n fun i _ => hvm i
    have hsq : (0 : ℚ) < sr := by exact_mod_cast hsr
    refine ⟨c + b / sr, by positivity, fun hn => ?_, ?_⟩
    · have := b2 hn
      positivity
    · rw [Oscillator.cycles, Finset.sum_range_succ', ← Finset.sum_div, b3, v0]
      push_cast
      field_simp
      ring
  have hat : Oscillator.AtCycle (Oscillator.cycles v sr 1) o := by
    obtain ⟨p1, p2, j, p3⟩ := a5
    refine ⟨p1, p2, j + 1, ?_⟩
    rw [Oscillator.cycles, Finset.sum_range_one, v0, mul_div_assoc, div_self hsr'.ne', mul_one, ← p3]
    push_cast
    ring
  obtain ⟨o', out, e1, e2, e3, e4, _⟩ := (Oscillator.block_cases N.isZero N.isOne hz ho F sr v
    (fun i => (q.process realArith t m sr).1.getD (i - 1) 0) (fun i => div_pos (hvp i) hsr') (fun i => by
      have : v i / sr ≤ B / sr := by gcongr; exact hB i
      linarith) 1 o hat a2
    ⟨fs, (q.process realArith t m sr).1,
      buffer d.state.outputCount m sr (window d.outputCount m silence), N.gains t⟩
    ⟨buffer_wf .., trivial, by simpa [buffer, Buf.channelCount, h2] using h3, rfl, by simpa [buffer, Buf.frameCount] using hlenp,
      by simpa [buffer, Buf.frameCount] using hlen, by
        intro i hi
        have hi : i < m := hi
        constructor
        · dsimp only
          rw [Nat.add_comm 1 i, v1, List.getD_eq_getElem _ _ (by omega), List.getElem?_eq_getElem]
        · dsimp only
          rw [Nat.add_sub_cancel_left, List.getD_eq_getElem?_getD, List.getElem?_eq_getElem (by omega)]
          rfl⟩).2 (by
      intro i _
      rintro ⟨j, hj⟩
      obtain ⟨c', _, c2, c3⟩ := hcyc (i + 1)
      rw [show 1 + i + 1 = i + 1 + 1 by omega, c3] at hj
      have hne : (c' : ℚ) ≠ 0 := (c2 (by omega)).ne'
      have h4 := (hirr.ratCast_mul hne).add_natCast (k + 1)
      rw [hj] at h4
      exact Nat.not_irrational j h4)
  obtain ⟨c', c1, _, c3⟩ := hcyc m
  refine ⟨fun c f => (out.view c f).getD 0, { d.state with processor := .oscillator o', parameters := ps.mapVals Prod.snd },
    ?_, h1, h2, h3, o', c', k + 1, (p.process realArith t m sr).2, (q.process realArith t m sr).2, rfl, by rw [e3]; exact a2,
    c1, ?_, ?_, pr2, ?_⟩
  · simp only [ops, run]
    rw [← hps, a1]
    have hu : (unbounded fun fuel => o.processAudio N.isZero N.isOne (N.gains t) fuel fs
        (q.process realArith t m sr).1 (buffer d.state.outputCount m sr (window d.outputCount m silence))) = .ok (o', out) :=
      unbounded_of (f := F) (x := (o', out))
        (fun f x h g => by rw [Nat.add_comm]; exact Oscillator.processAudio_mono g h) e1
    simp only [processAudio, values, hp, hq, bind, Except.bind, ← hfs, hu]
    rfl
  · rw [← c3, Nat.add_comm]
    exact e2
  · simp only
    rw [HMap.get?_mapVals, hp]
    rfl
  · simp only
    rw [HMap.get?_mapVals, hq]
    rfl

theorem tuned_change {f : ℝ} {d : Dsp FxNode} (hd : Tuned sr f d) {r : ParameterRequest} (hr : r.name = "gain" ∨ Keeps f r) :
    ∃ s, (ops N).change d.state r = .ok s ∧ Tuned sr f { d with state := s } := by
  obtain ⟨h1, h2, h3, o, c, k, p, q, a1, a2, a3, a5, a6, a7, a8⟩ := hd
  rcases hr with hr | hr
  · refine ⟨{ d.state with parameters := d.state.parameters.update r.name r.apply }, ?_, h1, h2, h3, o, c, k, p,
      r.apply q, a1, a2, a3, a5, ?_, a7, ?_⟩
    · simp only [ops, change, hr, a8]
    · simp only [HMap.get?_update]
      rw [hr, if_neg (by decide)]
      exact a6
    · simp only [HMap.get?_update]
      rw [hr, if_pos rfl, a8]
      rfl
  · have hn : r.name = "frequency" := by
      rcases hr with ⟨x, t, _, rfl⟩ | ⟨t, rfl⟩ <;> rfl
    refine ⟨{ d.state with parameters := d.state.parameters.update r.name r.apply }, ?_, h1, h2, h3, o, c, k, r.apply p,
      q, a1, a2, a3, a5, ?_, a7.apply hr, ?_⟩
    · simp only [ops, change, hn, a6]
    · simp only [HMap.get?_update]
      rw [hn, if_pos rfl, a6]
      rfl
    · simp only [HMap.get?_update]
      rw [hn, if_neg (by decide)]
      exact a8

end Fx
end Rawdio
