import Mathlib.Data.List.GetD
import Verif.Lemmas.Adsr
import Verif.Lemmas.AdsrEnvelope
import Verif.Lemmas.SamplerHistory

/-! # Histories of the ADSR node -/

namespace Rawdio

open EventProcessor

namespace AdsrProcessor

/-- The state between blocks. -/
structure Ready (sr maximum : Nat) (p : AdsrProcessor) : Prop where
  rate : p.events.sampleRate = sr
  capacity : p.capacity = maximum
  channel : p.events.channel = []
  sorted : InTimeOrder p.events.pending

theorem sendAll_ok (es : List AdsrEvent) : ∀ p : AdsrProcessor,
    p.events.channel.length + es.length ≤ adsrEventCapacity →
    p.sendAll es = .ok ⟨⟨p.events.pending, p.events.channel ++ es, p.events.sampleRate⟩, p.envelope,
      p.capacity, p.values⟩ := by
  induction es with
  | nil => intro p _; simp [sendAll, pure, Except.pure]
  | cons e es ih =>
    intro p h
    simp only [List.length_cons] at h
    unfold sendAll
    rw [List.foldlM_cons]
    have h1 : p.send e = .ok ⟨⟨p.events.pending, p.events.channel ++ [e], p.events.sampleRate⟩, p.envelope,
        p.capacity, p.values⟩ := by
      unfold send
      rw [if_pos (by omega)]
    rw [h1]
    refine (ih _ ?_).trans ?_
    · simp only [List.length_append, List.length_singleton]
      omega
    · simp only [List.append_assoc, List.singleton_append]

theorem receive_perm (p : EventProcessor AdsrEvent) :
    p.receiveEvents.pending.Perm (p.pending ++ p.channel) := by
  unfold receiveEvents
  split
  · rename_i h
    rw [h, List.append_nil]
  · rename_i es hne
    have := foldl_push p.channel (fun _ _ => rfl) p.pending
    exact (List.mergeSort_perm _ _).trans (by rw [this])

theorem receive_rate (p : EventProcessor AdsrEvent) : p.receiveEvents.sampleRate = p.sampleRate := by
  unfold receiveEvents
  split <;> rfl

/-- A history is played as specified. -/
theorem run_follows {sr maximum : Nat} (hsr : 0 < sr) (bs : List AdsrBlock) :
    ∀ p : AdsrProcessor, p.Ready sr maximum →
    (∀ b ∈ bs, b.Ok sr maximum ∧ b.sent.length ≤ adsrEventCapacity) →
    ∃ q outs, p.run bs = .ok (q, outs) ∧ AdsrBlock.Follows sr p.events.pending p.envelope bs outs := by
  induction bs with
  | nil => intro p _ _; exact ⟨p, [], rfl, trivial⟩
  | cons b bs ih =>
    intro p hp hb
    obtain ⟨hok, hlen⟩ := hb b List.mem_cons_self
    have hsend := sendAll_ok b.sent p (by rw [hp.channel]; simpa using hlen)
    rw [hp.channel, List.nil_append] at hsend
    obtain ⟨p1, hp1⟩ : ∃ p1 : AdsrProcessor, p1 = ⟨⟨p.events.pending, b.sent, p.events.sampleRate⟩, p.envelope,
      p.capacity, p.values⟩ := ⟨_, rfl⟩
    rw [← hp1] at hsend
    have e1 : p1.events.sampleRate = sr := by rw [hp1]; exact hp.rate
    have e2 : p1.capacity = maximum := by rw [hp1]; exact hp.capacity
    have e3 : p1.envelope = p.envelope := by rw [hp1]
    have hsort1 : InTimeOrder p1.events.receiveEvents.pending :=
      receive_sorted p1.events (by rw [hp1]; exact hp.sorted)
    have hperm : p1.events.receiveEvents.pending.Perm (p.events.pending ++ b.sent) := by
      have := receive_perm p1.events
      rw [hp1] at this ⊢
      exact this
    obtain ⟨q, hq, hq1, hq2, hq3, hq4, hq5, hq6⟩ := prepare_eq (p := p1) (n := b.input.frames) (start := b.start)
      (by rw [e1]; exact hsr) hok.nonempty (by rw [e1]; exact hok.short) (by rw [e2]; exact hok.fits)
      (inTimeOrder_time hsort1)
    rw [e1, e3] at hq1 hq2
    rw [e1] at hq6
    have hready : q.Ready sr maximum := by
      refine ⟨?_, hq3.trans e2, ?_, ?_⟩
      · rw [hq4, receive_rate]; exact e1
      · rw [hq5]; exact Sampler.receive_channel _
      · rw [hq6]; exact hsort1.filter _
    obtain ⟨q', outs, hrun, hfol⟩ := ih q hready (fun x hx => hb x (List.mem_cons_of_mem _ hx))
    obtain ⟨out, hout⟩ : ∃ out : Grid ℝ, out = { b.output with
      val := fun c f => if c < min b.input.channels b.output.channels ∧
          f < min (min b.output.frames b.input.frames) q.capacity then
        b.input.val c f * q.values f else b.output.val c f } := ⟨_, rfl⟩
    have hproc : p1.processAudio b.input b.output b.start = .ok (q, out) := by
      unfold processAudio
      rw [hok.frames, min_self]
      refine (ok_bind hq).trans ?_
      rw [hout]
      simp only [hok.frames, min_self]
    refine ⟨q', out :: outs, ?_, ?_⟩
    · unfold run
      refine (ok_bind hsend).trans ?_
      refine (ok_bind hproc).trans ?_
      exact (ok_bind hrun).trans rfl
    · refine ⟨p1.events.receiveEvents.pending, hperm, hsort1, ?_, ?_⟩
      · refine ⟨by rw [hout]; exact hok.channels, by rw [hout]; exact hok.frames, ?_⟩
        intro c f hc hf
        have hcond : c < min b.input.channels b.output.channels ∧
            f < min (min b.output.frames b.input.frames) q.capacity := by
          have := hok.fits
          rw [hok.channels, hok.frames, hq3, e2, min_self, min_self, lt_min_iff]
          omega
        rw [hout]
        show (if _ then _ else _) = _
        simp only
        rw [if_pos hcond, hq2 f hf, List.getD_eq_getElem _ _ (by rw [adsrValues_length]; exact hf)]
        rfl
      · rw [hq1, hq6] at hfol
        have hfun : (fun x : AdsrEvent => decide (b.start + Timestamp.fromSamples (b.input.frames : ℚ) sr ≤ x.time)) =
            (fun e : AdsrEvent => !decide (e.time < Timestamp.incrementedBySamples b.start b.input.frames sr)) := by
          funext x
          unfold Timestamp.incrementedBySamples
          by_cases h : x.time < b.start + Timestamp.fromSamples (b.input.frames : ℚ) sr
          · have : ¬ b.start + Timestamp.fromSamples (b.input.frames : ℚ) sr ≤ x.time := by omega
            simp [h, this]
          · have : b.start + Timestamp.fromSamples (b.input.frames : ℚ) sr ≤ x.time := by omega
            simp [h, this]
        rw [hfun]
        exact hfol

theorem ready_new (sr maximum : Nat) : (new sr maximum).Ready sr maximum :=
  ⟨rfl, rfl, rfl, List.Pairwise.nil⟩

theorem ok_new {sr : Nat} (hsr : 0 < sr) (maximum : Nat) : (new sr maximum).envelope.Ok := by
  have hl : (0 : ℝ) ≤ (Level.fromDb 0).linear ∧ (Level.fromDb 0).linear ≤ 1 := by
    unfold Level.fromDb Level.minusInfinityDecibels
    norm_num [Level.fromLinear]
  exact ⟨hsr, by constructor <;> norm_num [new, AdsrEnvelope.new], AdsrEnvelope.attack_range _ hsr,
    AdsrEnvelope.decay_range _ hl hsr, hl, AdsrEnvelope.release_range _ hl hsr⟩

end AdsrProcessor

namespace AdsrBlock

/-- Gains are in range. -/
theorem Follows.range {sr : Nat} (bs : List AdsrBlock) : ∀ (w : List AdsrEvent) (e : AdsrEnvelope)
    (outs : List (Grid ℝ)), e.Ok → (∀ x ∈ w, x.eventType.Ok) → (∀ b ∈ bs, ∀ x ∈ b.sent, x.eventType.Ok) →
    Follows sr w e bs outs → ∃ gain, Plays bs outs gain ∧ ∀ n, 0 ≤ gain n ∧ gain n ≤ 1 := by
  induction bs with
  | nil =>
    intro w e outs _ _ _ h
    cases outs with
    | nil => exact ⟨fun _ => 0, trivial, fun _ => by norm_num⟩
    | cons o os => exact h.elim
  | cons b bs ih =>
    intro w e outs he hw hb h
    cases outs with
    | nil => exact h.elim
    | cons o os =>
      obtain ⟨order, hperm, _, hsc, hrest⟩ := h
      have hord : ∀ x ∈ order, x.eventType.Ok := by
        intro x hx
        rcases List.mem_append.mp (hperm.mem_iff.mp hx) with h | h
        · exact hw x h
        · exact hb b List.mem_cons_self x h
      have hval := AdsrEnvelope.Ok.values ((order.filter (fun x => decide (x.time < b.start +
          Timestamp.fromSamples (b.input.frames : ℚ) sr))).map
          (fun x => (frameOf b.start x.time sr, x.eventType))) (by
        intro x hx
        obtain ⟨y, hy, rfl⟩ := List.mem_map.mp hx
        exact hord y (List.mem_filter.mp hy).1) b.input.frames 0 e he
      obtain ⟨g, hg1, hg2⟩ := ih _ _ os hval.1 (fun x hx => hord x (List.mem_filter.mp hx).1)
        (fun x hx => hb x (List.mem_cons_of_mem _ hx)) hrest
      refine ⟨fun n => if n < b.input.frames then
        (adsrValues ((order.filter (fun x => decide (x.time < b.start +
          Timestamp.fromSamples (b.input.frames : ℚ) sr))).map
          (fun x => (frameOf b.start x.time sr, x.eventType))) 0 b.input.frames e).2.getD n 0
        else g (n - b.input.frames), ⟨⟨hsc.1, hsc.2.1, ?_⟩, ?_⟩, ?_⟩
      · intro c f hc hf
        simp only
        rw [if_pos hf]
        exact hsc.2.2 c f hc hf
      · have : (fun n => g n) = (fun n => if b.input.frames + n < b.input.frames then
            (adsrValues ((order.filter (fun x => decide (x.time < b.start +
              Timestamp.fromSamples (b.input.frames : ℚ) sr))).map
              (fun x => (frameOf b.start x.time sr, x.eventType))) 0 b.input.frames e).2.getD (b.input.frames + n) 0
            else g (b.input.frames + n - b.input.frames)) := by
          funext n
          rw [if_neg (by omega), Nat.add_sub_cancel_left]
        rw [← this]
        exact hg1
      · intro n
        simp only
        split
        · rename_i hn
          rw [List.getD_eq_getElem _ _ (by rw [adsrValues_length]; exact hn)]
          exact hval.2 _ (List.getElem_mem _)
        · exact hg2 _

/-- Without a note there is silence. -/
theorem Follows.idle {sr : Nat} (bs : List AdsrBlock) : ∀ (w : List AdsrEvent) (e : AdsrEnvelope)
    (outs : List (Grid ℝ)), e.phase = .idle → (∀ x ∈ w, x.eventType ≠ .noteOn) →
    (∀ b ∈ bs, ∀ x ∈ b.sent, x.eventType ≠ .noteOn) →
    Follows sr w e bs outs → Plays bs outs (fun _ => 0) := by
  induction bs with
  | nil =>
    intro w e outs _ _ _ h
    cases outs with
    | nil => trivial
    | cons o os => exact h.elim
  | cons b bs ih =>
    intro w e outs he hw hb h
    cases outs with
    | nil => exact h.elim
    | cons o os =>
      obtain ⟨order, hperm, _, hsc, hrest⟩ := h
      have hord : ∀ x ∈ order, x.eventType ≠ .noteOn := by
        intro x hx
        rcases List.mem_append.mp (hperm.mem_iff.mp hx) with h | h
        · exact hw x h
        · exact hb b List.mem_cons_self x h
      have hval := AdsrEnvelope.idle_values ((order.filter (fun x => decide (x.time < b.start +
          Timestamp.fromSamples (b.input.frames : ℚ) sr))).map
          (fun x => (frameOf b.start x.time sr, x.eventType))) (by
        intro x hx
        obtain ⟨y, hy, rfl⟩ := List.mem_map.mp hx
        exact hord y (List.mem_filter.mp hy).1) b.input.frames 0 e he
      refine ⟨⟨hsc.1, hsc.2.1, ?_⟩, ih _ _ os hval.1 (fun x hx => hord x (List.mem_filter.mp hx).1)
        (fun x hx => hb x (List.mem_cons_of_mem _ hx)) hrest⟩
      intro c f hc hf
      rw [hsc.2.2 c f hc hf]
      show b.input.val c f * List.getD _ _ _ = _
      rw [List.getD_eq_getElem _ _ (by rw [adsrValues_length]; exact hf), hval.2 _ (List.getElem_mem _)]

theorem Plays.append {bs : List AdsrBlock} : ∀ {os : List (Grid ℝ)} {cs : List AdsrBlock} {ps : List (Grid ℝ)}
    {gain : Nat → ℝ}, Plays bs os gain → Plays cs ps (fun n => gain (totalFrames bs + n)) →
    Plays (bs ++ cs) (os ++ ps) gain := by
  induction bs with
  | nil =>
    intro os cs ps gain h1 h2
    cases os with
    | nil =>
      have : (fun n => gain (totalFrames [] + n)) = gain := by funext n; simp [totalFrames]
      rw [this] at h2
      exact h2
    | cons o os => exact h1.elim
  | cons b bs ih =>
    intro os cs ps gain h1 h2
    cases os with
    | nil => exact h1.elim
    | cons o os =>
      refine ⟨h1.1, ih h1.2 ?_⟩
      have : (fun n => gain (b.input.frames + (totalFrames bs + n))) =
          (fun n => gain (totalFrames (b :: bs) + n)) := by
        funext n
        simp [totalFrames, Nat.add_assoc]
      rw [this]
      exact h2

/-- Only the gains of the frames there are matter. -/
theorem Plays.congr {bs : List AdsrBlock} : ∀ {os : List (Grid ℝ)} {gain gain' : Nat → ℝ},
    Plays bs os gain → (∀ n, n < totalFrames bs → gain n = gain' n) → Plays bs os gain' := by
  induction bs with
  | nil =>
    intro os g g' h _
    cases os with
    | nil => trivial
    | cons o os => exact h.elim
  | cons b bs ih =>
    intro os g g' h hg
    cases os with
    | nil => exact h.elim
    | cons o os =>
      have ht : totalFrames (b :: bs) = b.input.frames + totalFrames bs := by simp [totalFrames]
      refine ⟨⟨h.1.1, h.1.2.1, fun c f hc hf => ?_⟩, ih h.2 (fun n hn => hg _ (by omega))⟩
      rw [h.1.2.2 c f hc hf, hg f (by omega)]

/-- Blocks without events. -/
theorem Follows.plain {sr : Nat} (bs : List AdsrBlock) : ∀ (cs : List AdsrBlock) (e : AdsrEnvelope)
    (outs : List (Grid ℝ)), (∀ b ∈ bs, b.sent = []) → Follows sr [] e (bs ++ cs) outs →
    ∃ o1 o2, outs = o1 ++ o2 ∧ Plays bs o1 (fun n => (e.steps (n + 1)).envelope) ∧
      Follows sr [] (e.steps (totalFrames bs)) cs o2 := by
  induction bs with
  | nil =>
    intro cs e outs _ h
    exact ⟨[], outs, rfl, trivial, h⟩
  | cons b bs ih =>
    intro cs e outs hb h
    cases outs with
    | nil => exact h.elim
    | cons o os =>
      obtain ⟨order, hperm, _, hsc, hrest⟩ := h
      rw [hb b List.mem_cons_self] at hperm
      have ho : order = [] := hperm.eq_nil
      subst ho
      simp only [List.filter_nil, List.map_nil, AdsrEnvelope.plain_values] at hsc hrest
      obtain ⟨o1, o2, rfl, h1, h2⟩ := ih cs _ os (fun x hx => hb x (List.mem_cons_of_mem _ hx)) hrest
      refine ⟨o :: o1, o2, rfl, ⟨⟨hsc.1, hsc.2.1, ?_⟩, ?_⟩, ?_⟩
      · intro c f hc hf
        rw [hsc.2.2 c f hc hf]
        simp only
        rw [List.getD_eq_getElem _ _ (by simpa using hf)]
        simp
      · have : (fun n => (e.steps (b.input.frames + n + 1)).envelope) =
            (fun n => ((e.steps b.input.frames).steps (n + 1)).envelope) := by
          funext n
          rw [← AdsrEnvelope.steps_add, Nat.add_assoc]
        rw [this]
        exact h1
      · have : totalFrames (b :: bs) = b.input.frames + totalFrames bs := by simp [totalFrames]
        rw [this, AdsrEnvelope.steps_add]
        exact h2

theorem one_event (pre : List AdsrEventType) (x : AdsrEventType) {f n : Nat} (hf : f < n) (e : AdsrEnvelope) :
    let e1 := pre.foldl AdsrEnvelope.apply e
    let e2 := (e1.steps f).apply x
    (adsrValues (pre.map (fun y => (0, y)) ++ [(f, x)]) 0 n e).1 = e2.steps (n - f) ∧
      ∀ i, i < n → (adsrValues (pre.map (fun y => (0, y)) ++ [(f, x)]) 0 n e).2.getD i 0 =
        if i < f then (e1.steps (i + 1)).envelope else (e2.steps (i - f + 1)).envelope := by
  have hpre : ∀ (pre : List AdsrEventType) (e : AdsrEnvelope),
      adsrValues (pre.map (fun y => (0, y)) ++ [(f, x)]) 0 n e =
        adsrValues [(f, x)] 0 n (pre.foldl AdsrEnvelope.apply e) := by
    intro pre
    induction pre with
    | nil => intro e; rfl
    | cons y pre ih =>
      intro e
      rw [List.map_cons, List.cons_append]
      refine (adsrValues_cons (0, y) _ n (by omega) e).trans ?_
      exact ih _
  simp only
  rw [hpre]
  obtain ⟨e1, he1⟩ : ∃ e1, e1 = pre.foldl AdsrEnvelope.apply e := ⟨_, rfl⟩
  rw [← he1]
  obtain ⟨m, rfl⟩ : ∃ m, n = f + m := ⟨n - f, by omega⟩
  have h1 : adsrValues [(f, x)] 0 f e1 =
      (e1.steps f, (List.range f).map (fun i => (e1.steps (i + 1)).envelope)) := by
    rw [adsrValues_skip [(f, x)] f 0 f e1 (by omega) (by simp), AdsrEnvelope.plain_values]
  have h2 : adsrValues [(f, x)] (0 + f) m (e1.steps f) =
      (((e1.steps f).apply x).steps m,
        (List.range m).map (fun i => (((e1.steps f).apply x).steps (i + 1)).envelope)) := by
    rw [Nat.zero_add, ← AdsrEnvelope.plain_values m f]
    exact adsrValues_cons (f, x) [] m (by omega) _
  rw [adsrValues_append, h1, h2]
  refine ⟨by rw [Nat.add_sub_cancel_left], ?_⟩
  intro i hi
  split
  · rename_i hlt
    rw [List.getD_eq_getElem _ _ (by simp; omega), List.getElem_append_left (by simpa using hlt)]
    simp
  · rename_i hge
    rw [List.getD_eq_getElem _ _ (by simp; omega), List.getElem_append_right (by simp; omega)]
    simp

/-- A block with events at its beginning and one more event. -/
theorem Follows.one {sr : Nat} (hsr : 0 < sr) {b : AdsrBlock} (hn : 0 < b.input.frames) {bs : List AdsrBlock}
    {e : AdsrEnvelope} {outs : List (Grid ℝ)} {pre : List AdsrEvent} {x : AdsrEvent}
    (hs : b.sent = pre ++ [x])
    (hpre : ∀ y ∈ pre, y.time ≤ b.start ∧ y.time ≤ x.time)
    (hx : x.time < b.start + Timestamp.fromSamples (b.input.frames : ℚ) sr)
    (hord : InTimeOrder b.sent)
    (hseq : b.sent.Pairwise (fun a b => a.sequenceNumber < b.sequenceNumber))
    (h : Follows sr [] e (b :: bs) outs) :
    let e1 := (pre.map AdsrEvent.eventType).foldl AdsrEnvelope.apply e
    let f := frameOf b.start x.time sr
    let e2 := (e1.steps f).apply x.eventType
    f < b.input.frames ∧ ∃ o os, outs = o :: os ∧
      b.Scaled o (fun i => if i < f then (e1.steps (i + 1)).envelope else (e2.steps (i - f + 1)).envelope) ∧
      Follows sr [] (e2.steps (b.input.frames - f)) bs os := by
  cases outs with
  | nil => exact h.elim
  | cons o os =>
    obtain ⟨order, hperm, hsorted, hsc, hrest⟩ := h
    rw [List.nil_append] at hperm
    have ho : order = b.sent := by
      refine List.Perm.eq_of_pairwise ?_ hsorted hord hperm
      intro u v hu hv huv hvu
      have hu' := hperm.mem_iff.mp hu
      have hne : ∀ (l : List AdsrEvent), l.Pairwise (fun a b => a.sequenceNumber < b.sequenceNumber) →
          ∀ u ∈ l, ∀ v ∈ l, u.sequenceNumber = v.sequenceNumber → u = v := by
        intro l
        induction l with
        | nil => intro _ u hu; cases hu
        | cons y l ih =>
          intro hl u hu v hv heq
          rw [List.pairwise_cons] at hl
          rcases List.mem_cons.mp hu with hu1 | hu1
          · rcases List.mem_cons.mp hv with hv1 | hv1
            · rw [hu1, hv1]
            · have := hl.1 v hv1; rw [hu1] at heq; omega
          · rcases List.mem_cons.mp hv with hv1 | hv1
            · have := hl.1 u hu1; rw [hv1] at heq; omega
            · exact ih hl.2 u hu1 v hv1 heq
      apply hne b.sent hseq u hu' v hv
      change (u.time < v.time ∨ (u.time = v.time ∧ u.sequenceNumber ≤ v.sequenceNumber)) at huv
      change (v.time < u.time ∨ (v.time = u.time ∧ v.sequenceNumber ≤ u.sequenceNumber)) at hvu
      omega
    subst ho
    have hall : ∀ y ∈ b.sent, y.time < b.start + Timestamp.fromSamples (b.input.frames : ℚ) sr := by
      intro y hy
      rw [hs] at hy
      rcases List.mem_append.mp hy with h | h
      · have := hpre y h; omega
      · rw [List.mem_singleton] at h; rw [h]; exact hx
    have hdue : b.sent.filter (fun x => decide (x.time < b.start +
        Timestamp.fromSamples (b.input.frames : ℚ) sr)) = b.sent := by
      rw [List.filter_eq_self]
      intro y hy
      exact decide_eq_true (hall y hy)
    have hnone : b.sent.filter (fun x => decide (b.start +
        Timestamp.fromSamples (b.input.frames : ℚ) sr ≤ x.time)) = [] := by
      rw [List.filter_eq_nil_iff]
      intro y hy
      have := hall y hy
      simp only [decide_eq_true_eq]
      omega
    have hf : frameOf b.start x.time sr < b.input.frames := frameOf_lt hsr hn hx
    have hmap : b.sent.map (fun x => (frameOf b.start x.time sr, x.eventType)) =
        (pre.map AdsrEvent.eventType).map (fun y => (0, y)) ++ [(frameOf b.start x.time sr, x.eventType)] := by
      rw [hs, List.map_append, List.map_map]
      congr 1
      apply List.map_congr_left
      intro y hy
      have h0 : frameOf b.start y.time sr = 0 := by
        have h1 := frameOf_mono (start := b.start) sr (hpre y hy).1
        have h2 : frameOf b.start b.start sr = 0 := by simp [frameOf]
        omega
      simp [h0]
    simp only [hdue, hnone, hmap] at hsc hrest
    have h1 := one_event (pre.map AdsrEvent.eventType) x.eventType hf e
    simp only at h1
    rw [h1.1] at hrest
    refine ⟨hf, o, os, rfl, ⟨hsc.1, hsc.2.1, ?_⟩, hrest⟩
    intro c i hc hi
    rw [hsc.2.2 c i hc hi]
    simp only
    rw [h1.2 i hi]

end AdsrBlock
end Rawdio
