import Verif.Lemmas.OscillatorRun
import Verif.Lemmas.RecorderKeepsUp

/-! # Oscillators whose frequency changes, over the events of a session -/

namespace Rawdio
namespace Fx

variable {N : Platform} {sr mf : Nat}

/-- The states of oscillators that are `t` frames along the frequencies `v`, before the events `es`. -/
structure Along (sr : Nat) (v : ℕ → ℝ) (t : ℕ) (es : List (ChainEvent ParameterRequest)) (d : Dsp FxNode) : Prop where
  outputs : d.state.outputCount = d.outputCount
  some_output : 0 < d.outputCount
  at_cycle : ∃ (o : Oscillator) (p q : RealtimeParameter ℝ), d.state.processor = .oscillator o ∧
    0 < o.wavetable.length ∧ Oscillator.AtCycle (Oscillator.cycles v sr t) o ∧
    d.state.parameters.get? "frequency" = some p ∧ d.state.parameters.get? "gain" = some q ∧
    ∀ j < ChainEvent.total es, (parameterTrack sr d.id "frequency" p es).getD j 0 = v (t + j)

/-- An oscillator fails at the first whole number of cycles, and otherwise goes on. -/
theorem along_block (hz : ∀ x, N.isZero x = true → x = 0) (ho : ∀ x, N.isOne x = true → x = 1) (v : ℕ → ℝ) (F : Nat)
    (hv : ∀ t, 0 < v t / sr) (hF : ∀ t, v t / sr + 1 < F) {d : Dsp FxNode} {n m : Nat} {t : Int}
    {es : List (ChainEvent ParameterRequest)} (hd : Along sr v n (.block t m :: es) d) (x : Nat → Nat → ℝ) :
    ((∃ f < m, Oscillator.Whole (Oscillator.cycles v sr (n + f + 1))) →
      (ops N).run d.state ⟨m, sr, t, window d.inputCount m x, window d.outputCount m silence⟩ = .error .panic) ∧
    ((∀ f < m, ¬ Oscillator.Whole (Oscillator.cycles v sr (n + f + 1))) →
      ∃ y s, (ops N).run d.state ⟨m, sr, t, window d.inputCount m x, window d.outputCount m silence⟩ = .ok (y, s) ∧
        Along sr v (n + m) es { d with state := s }) := by
  obtain ⟨h2, h3, o, p, q, a1, a2, a5, a6, a8, a9⟩ := hd
  obtain ⟨ps, hps⟩ : ∃ ps, ps = HMap.mapVals d.state.parameters fun p => p.process realArith t m sr := ⟨_, rfl⟩
  have hp : ps.get? "frequency" = some (p.process realArith t m sr) := by
    rw [hps, HMap.get?_mapVals, a6, Option.map_some]
  have hq : ps.get? "gain" = some (q.process realArith t m sr) := by
    rw [hps, HMap.get?_mapVals, a8, Option.map_some]
  have hlp : (p.process realArith t m sr).1.length = m := RealtimeParameter.process_length ..
  have hlen : (q.process realArith t m sr).1.length = m := RealtimeParameter.process_length ..
  have hval : ∀ i < m, (p.process realArith t m sr).1[i]? = some (v (n + i)) := by
    intro i hi
    have := a9 i (by simp only [ChainEvent.total, ChainEvent.frames, List.map_cons, List.sum_cons]; omega)
    rw [parameterTrack, List.getD_eq_getElem?_getD, List.getElem?_append_left (by omega)] at this
    rw [List.getElem?_eq_getElem (by omega)] at this ⊢
    rw [← this]
    rfl
  have key := Oscillator.block_cases N.isZero N.isOne hz ho F sr v
    (fun i => (q.process realArith t m sr).1.getD (i - n) 0) hv hF n o a5 a2
    ⟨(p.process realArith t m sr).1, (q.process realArith t m sr).1,
      buffer d.state.outputCount m sr (window d.outputCount m silence), N.gains t⟩
    ⟨buffer_wf .., trivial, by simpa [buffer, Buf.channelCount, h2] using h3, rfl,
      by simpa [buffer, Buf.frameCount] using hlp, by simpa [buffer, Buf.frameCount] using hlen, by
        intro i hi
        have hi : i < m := hi
        refine ⟨hval i hi, ?_⟩
        dsimp only
        rw [Nat.add_sub_cancel_left, List.getD_eq_getElem?_getD, List.getElem?_eq_getElem (by omega)]
        rfl⟩
  have hmono : ∀ (f : Nat) r, o.processAudio N.isZero N.isOne (N.gains t) f (p.process realArith t m sr).1
      (q.process realArith t m sr).1 (buffer d.state.outputCount m sr (window d.outputCount m silence)) = .ok r →
      ∀ g, o.processAudio N.isZero N.isOne (N.gains t) (g + f) (p.process realArith t m sr).1
      (q.process realArith t m sr).1 (buffer d.state.outputCount m sr (window d.outputCount m silence)) = .ok r :=
    fun f x h g => by rw [Nat.add_comm]; exact Oscillator.processAudio_mono g h
  constructor
  · intro hw
    have e1 := key.1 hw
    have hu : (unbounded fun fuel => o.processAudio N.isZero N.isOne (N.gains t) fuel (p.process realArith t m sr).1
        (q.process realArith t m sr).1 (buffer d.state.outputCount m sr (window d.outputCount m silence))) =
        .error .panic := by
      unfold unbounded
      rw [dif_neg, if_pos ⟨F, e1⟩]
      rintro ⟨r, f, hr⟩
      have h4 := Oscillator.processAudio_mono F hr
      have h5 := (Oscillator.block_cases N.isZero N.isOne hz ho (f + F) sr v
        (fun i => (q.process realArith t m sr).1.getD (i - n) 0) hv
        (fun t => lt_of_lt_of_le (hF t) (by push_cast; linarith [(Nat.cast_nonneg f : (0 : ℝ) ≤ f)])) n o a5 a2
        ⟨(p.process realArith t m sr).1, (q.process realArith t m sr).1,
          buffer d.state.outputCount m sr (window d.outputCount m silence), N.gains t⟩
        ⟨buffer_wf .., trivial, by simpa [buffer, Buf.channelCount, h2] using h3, rfl,
          by simpa [buffer, Buf.frameCount] using hlp, by simpa [buffer, Buf.frameCount] using hlen, by
            intro i hi
            have hi : i < m := hi
            refine ⟨hval i hi, ?_⟩
            dsimp only
            rw [Nat.add_sub_cancel_left, List.getD_eq_getElem?_getD, List.getElem?_eq_getElem (by omega)]
            rfl⟩).1 hw
      dsimp only at h5
      rw [h4] at h5
      cases h5
    simp only [ops, run]
    rw [← hps, a1]
    simp only [processAudio, values, hp, hq, bind, Except.bind, hu]
  · intro hw
    obtain ⟨o', out, e1, e2, e3, e4, _⟩ := key.2 hw
    refine ⟨fun c f => (out.view c f).getD 0, { d.state with processor := .oscillator o', parameters := ps.mapVals Prod.snd },
      ?_, h2, h3, o', (p.process realArith t m sr).2, (q.process realArith t m sr).2, rfl, by rw [e3]; exact a2, e2, ?_, ?_, ?_⟩
    · simp only [ops, run]
      rw [← hps, a1]
      have hu : (unbounded fun fuel => o.processAudio N.isZero N.isOne (N.gains t) fuel (p.process realArith t m sr).1
          (q.process realArith t m sr).1 (buffer d.state.outputCount m sr (window d.outputCount m silence))) =
          .ok (o', out) := unbounded_of (f := F) (x := (o', out)) hmono e1
      simp only [processAudio, values, hp, hq, bind, Except.bind, hu]
      rfl
    · simp only
      rw [HMap.get?_mapVals, hp]
      rfl
    · simp only
      rw [HMap.get?_mapVals, hq]
      rfl
    · intro j hj
      have := a9 (m + j) (by
        simp only [ChainEvent.total, ChainEvent.frames, List.map_cons, List.sum_cons] at hj ⊢; omega)
      rw [parameterTrack, List.getD_eq_getElem?_getD, List.getElem?_append_right (by omega), hlp, Nat.add_sub_cancel_left] at this
      rw [List.getD_eq_getElem?_getD, this, Nat.add_assoc]

theorem along_change {v : ℕ → ℝ} {n : Nat} {r : ParameterRequest} {es : List (ChainEvent ParameterRequest)} {d : Dsp FxNode}
    (hr : r.name = "frequency" ∨ r.name = "gain") (hd : Along sr v n (.change d.id r :: es) d) :
    ∃ s, (ops N).change d.state r = .ok s ∧ Along sr v n es { d with state := s } := by
  obtain ⟨h2, h3, o, p, q, a1, a2, a5, a6, a8, a9⟩ := hd
  have hex : ∃ u, d.state.parameters.get? r.name = some u := by
    rcases hr with hr | hr <;> rw [hr]
    · exact ⟨_, a6⟩
    · exact ⟨_, a8⟩
  obtain ⟨u, hu⟩ := hex
  refine ⟨{ d.state with parameters := d.state.parameters.update r.name r.apply }, by simp only [ops, change, hu], h2, h3, o,
    if r.name = "frequency" then r.apply p else p, if r.name = "gain" then r.apply q else q, a1, a2, a5, ?_, ?_, ?_⟩
  · simp only [HMap.get?_update]
    by_cases h : r.name = "frequency"
    · rw [if_pos h.symm, if_pos h, a6]
      rfl
    · rw [if_neg (Ne.symm h), if_neg h, a6]
  · simp only [HMap.get?_update]
    by_cases h : r.name = "gain"
    · rw [if_pos h.symm, if_pos h, a8]
      rfl
    · rw [if_neg (Ne.symm h), if_neg h, a8]
  · intro j hj
    have := a9 j (by simpa [ChainEvent.total, ChainEvent.frames] using hj)
    rw [parameterTrack] at this
    simpa using this

/-- An oscillator over the events of a session: it fails if it comes to a whole number of cycles at a frame, and only
then. -/
theorem along_run (hz : ∀ x, N.isZero x = true → x = 0) (ho : ∀ x, N.isOne x = true → x = 1) (v : ℕ → ℝ) (F : Nat)
    (hv : ∀ t, 0 < v t / sr) (hF : ∀ t, v t / sr + 1 < F) (es : List (ChainEvent ParameterRequest)) :
    ∀ (d : Dsp FxNode) (n : Nat) (x : Nat → Nat → ℝ), Along sr v n es d →
      (∀ r, .change d.id r ∈ es → r.name = "frequency" ∨ r.name = "gain") →
      ((∃ f < ChainEvent.total es, Oscillator.Whole (Oscillator.cycles v sr (n + f + 1))) →
        chainRun (ops N) sr [d] es x = .error .panic) ∧
      ((∀ f < ChainEvent.total es, ¬ Oscillator.Whole (Oscillator.cycles v sr (n + f + 1))) →
        ∃ y d', chainRun (ops N) sr [d] es x = .ok (y, [d'])) := by
  induction es with
  | nil =>
    intro d n x _ _
    exact ⟨fun ⟨f, h, _⟩ => by simp [ChainEvent.total] at h, fun _ => ⟨_, d, rfl⟩⟩
  | cons e es ih =>
    intro d n x hd hr
    have hr' : ∀ r, .change d.id r ∈ es → r.name = "frequency" ∨ r.name = "gain" := fun r h => hr r (List.mem_cons_of_mem _ h)
    cases e with
    | change i c =>
      have ht : ChainEvent.total (.change i c :: es) = ChainEvent.total es := by simp [ChainEvent.total, ChainEvent.frames]
      rw [ht]
      by_cases hi : d.id = i
      · subst hi
        obtain ⟨s, h1, h2⟩ := along_change (N := N) (hr c List.mem_cons_self) hd
        rw [chainRun_change_of rfl h1]
        exact ih _ n x h2 hr'
      · have := (Network.Turns.other (ops := ops N) (c := c) (d := d) hi).2 sr es x
        rw [List.map_singleton, List.singleton_append] at this
        rw [this]
        refine ih d n x ?_ hr'
        obtain ⟨h2, h3, o, p, q, a1, a2, a5, a6, a8, a9⟩ := hd
        refine ⟨h2, h3, o, p, q, a1, a2, a5, a6, a8, fun j hj => ?_⟩
        have := a9 j (by rw [ht]; exact hj)
        rw [parameterTrack, if_neg (fun h => hi h.1.symm)] at this
        exact this
    | block t m =>
      have ht : ChainEvent.total (.block t m :: es) = m + ChainEvent.total es := by simp [ChainEvent.total, ChainEvent.frames]
      rw [ht]
      obtain ⟨b1, b2⟩ := along_block (N := N) hz ho v F hv hF hd x
      by_cases hw : ∃ f < m, Oscillator.Whole (Oscillator.cycles v sr (n + f + 1))
      · refine ⟨fun _ => ?_, fun h => ?_⟩
        · have h1 := b1 hw
          simp only [chainRun, chainBlock, bind, Except.bind]
          rw [h1]
        · obtain ⟨f, hf, hw⟩ := hw
          exact absurd hw (h f (by omega))
      · obtain ⟨y, s, h1, h2⟩ := b2 (fun f hf hh => hw ⟨f, hf, hh⟩)
        obtain ⟨i1, i2⟩ := ih _ (n + m) (later m x) h2 hr'
        refine ⟨?_, ?_⟩
        · rintro ⟨f, hf, hh⟩
          have h3 := i1 ⟨f - m, by
            have : ¬ f < m := fun h => hw ⟨f, h, hh⟩
            omega, by
            have : ¬ f < m := fun h => hw ⟨f, h, hh⟩
            rwa [show n + m + (f - m) + 1 = n + f + 1 by omega]⟩
          have h4 := chainBlock_of h1
          simp only [chainRun, bind, Except.bind]
          rw [h4]
          dsimp only
          rw [h3]
        · intro h
          obtain ⟨u, d', h3⟩ := i2 (fun f hf => by
            have := h (m + f) (by omega)
            rwa [show n + (m + f) + 1 = n + m + f + 1 by omega] at this)
          exact ⟨_, d', chainRun_block_of (chainBlock_of h1) h3⟩

/-- A new oscillator over the events of a session. -/
theorem oscillator_run (hz : ∀ x, N.isZero x = true → x = 0) (ho : ∀ x, N.isOne x = true → x = 1) (hsr : 0 < sr) (f : ℝ)
    (c : Nat) (table : List ℝ) (hu : (FxKind.oscillator f c table).Usable) (i : Id) (d : Dsp FxNode)
    (hd : (FxKind.oscillator f c table).make sr mf i = .ok d) (es : List (ChainEvent ParameterRequest))
    (hr : ∀ r, .change i r ∈ es → r.name ∈ (FxKind.oscillator f c table).names)
    (hpos : ∀ F < ChainEvent.total es, 0 < (FxKind.oscillator f c table).track sr es i "frequency" F) (x : Nat → Nat → ℝ) :
    ((∃ F < ChainEvent.total es, Oscillator.Whole
        (Oscillator.cycles ((FxKind.oscillator f c table).track sr es i "frequency") sr (F + 1))) →
      chainRun (ops N) sr [d] es x = .error .panic) ∧
    ((∀ F < ChainEvent.total es, ¬ Oscillator.Whole
        (Oscillator.cycles ((FxKind.oscillator f c table).track sr es i "frequency") sr (F + 1))) →
      ∃ y d', chainRun (ops N) sr [d] es x = .ok (y, [d'])) := by
  cases hd
  have hsr' : (0 : ℝ) < sr := by exact_mod_cast hsr
  obtain ⟨w, hw⟩ : ∃ w, w = (FxKind.oscillator f c table).track sr es i "frequency" := ⟨_, rfl⟩
  rw [← hw] at hpos ⊢
  obtain ⟨v, hvd⟩ : ∃ v : ℕ → ℝ, v = fun F => if F < ChainEvent.total es then w F else 1 := ⟨_, rfl⟩
  have hvw : ∀ F < ChainEvent.total es, v F = w F := fun F hF => by rw [hvd]; exact if_pos hF
  have hv : ∀ t, 0 < v t := by
    intro t
    rw [hvd]
    dsimp only
    split
    · exact hpos _ ‹_›
    · exact one_pos
  have hb : ∃ B : ℝ, ∀ t, v t ≤ B := by
    refine ⟨∑ t ∈ Finset.range (ChainEvent.total es), v t + 1, fun t => ?_⟩
    by_cases ht : t < ChainEvent.total es
    · have := Finset.single_le_sum (f := v) (fun i _ => (hv i).le) (Finset.mem_range.mpr ht)
      linarith
    · have h1 : v t = 1 := by rw [hvd]; exact if_neg ht
      have := Finset.sum_nonneg (f := v) (s := Finset.range (ChainEvent.total es)) (fun i _ => (hv i).le)
      linarith
  obtain ⟨B, hB⟩ := hb
  obtain ⟨G, hG⟩ := exists_nat_gt (B / sr + 1)
  have hcy : ∀ F < ChainEvent.total es, Oscillator.cycles v sr (F + 1) = Oscillator.cycles w sr (F + 1) := by
    intro F hF
    refine Finset.sum_congr rfl fun t ht => ?_
    rw [hvw t (by have := Finset.mem_range.mp ht; omega)]
  have key := along_run (N := N) (sr := sr) hz ho v G (fun t => div_pos (hv t) hsr') (fun t => by
      have := div_le_div_of_nonneg_right (hB t) hsr'.le
      linarith) es ⟨i, 0, c, ⟨0, c, .oscillator (Oscillator.new table), FxKind.parameters [("frequency", f), ("gain", 1)]⟩⟩ 0 x
    ⟨rfl, hu.1, Oscillator.new table, .new realArith f, .new realArith 1, rfl, hu.2.1,
      ⟨le_rfl, zero_le_one, 0, by simp [Oscillator.new, Oscillator.cycles]⟩, rfl, rfl, by
        intro j hj
        rw [Nat.zero_add, hvw j hj, hw, FxKind.track]
        rfl⟩ (by
      intro r h
      simpa [FxKind.names] using hr r h)
  simp only [Nat.zero_add] at key
  refine ⟨fun ⟨F, hF, h⟩ => key.1 ⟨F, hF, by rw [hcy F hF]; exact h⟩, fun h => key.2 fun F hF => by
    rw [hcy F hF]; exact h F hF⟩

end Fx
end Rawdio
