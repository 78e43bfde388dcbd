import Verif.Lemmas.AdsrRun
import Verif.Lemmas.EffectRun
import Verif.Lemmas.Mixer
import Verif.Lemmas.OscillatorRun
import Verif.Lemmas.SamplerNode
import Verif.Spec.MixedNodes

/-! Helper lemmas: nodes of different kinds in one engine. -/

namespace Rawdio

/-! ## One kind among others -/

section embed

variable {S P Q C D : Type} [Zero S] {a : NodeOps S P C} {b : NodeOps S Q D} {f : P → Q} {own : D → Option C}

/-- Nodes of one kind behave as they do when there are no others. -/
structure Embeds (a : NodeOps S P C) (b : NodeOps S Q D) (f : P → Q) (own : D → Option C) : Prop where
  run : ∀ s blk, b.run (f s) blk = (a.run s blk).map fun r => (r.1, f r.2)
  change : ∀ s r, b.change (f s) r = match own r with
    | some c => (a.change s c).map f
    | none => .error .panic

/-- The node of the kind. -/
def Dsp.within (f : P → Q) (d : Dsp P) : Dsp Q := ⟨d.id, d.inputCount, d.outputCount, f d.state⟩

theorem chainBlock_single {ops : NodeOps S P C} {sr n : Nat} {t : Int} {d : Dsp P} {x y : Nat → Nat → S}
    {L : List (Dsp P)} (h : chainBlock ops sr t n [d] x = .ok (y, L)) :
    ∃ z s, ops.run d.state ⟨n, sr, t, window d.inputCount n x, window d.outputCount n silence⟩ = .ok (z, s) ∧
      y = clip d.outputCount n z ∧ L = [{ d with state := s }] := by
  simp only [chainBlock, bind, Except.bind] at h
  cases hr : ops.run d.state ⟨n, sr, t, window d.inputCount n x, window d.outputCount n silence⟩ with
  | error e => rw [hr] at h; cases h
  | ok r =>
    rw [hr] at h
    cases h
    exact ⟨r.1, r.2, rfl, rfl, rfl⟩

theorem chainBlock_of {ops : NodeOps S P C} {sr n : Nat} {t : Int} {d : Dsp P} {x z : Nat → Nat → S} {s : P}
    (h : ops.run d.state ⟨n, sr, t, window d.inputCount n x, window d.outputCount n silence⟩ = .ok (z, s)) :
    chainBlock ops sr t n [d] x = .ok (clip d.outputCount n z, [{ d with state := s }]) := by
  simp only [chainBlock, bind, Except.bind]
  rw [h]
  rfl

theorem chainRun_block {ops : NodeOps S P C} {sr n : Nat} {t : Int} {ds L : List (Dsp P)} {x y : Nat → Nat → S}
    {es : List (ChainEvent C)} (h : chainRun ops sr ds (.block t n :: es) x = .ok (y, L)) :
    ∃ u ds' v, chainBlock ops sr t n ds x = .ok (u, ds') ∧ chainRun ops sr ds' es (later n x) = .ok (v, L) ∧
      y = followed n u v := by
  simp only [chainRun, bind, Except.bind] at h
  cases hb : chainBlock ops sr t n ds x with
  | error e => rw [hb] at h; cases h
  | ok q =>
    rw [hb] at h
    dsimp only at h
    cases hr : chainRun ops sr q.2 es (later n x) with
    | error e => rw [hr] at h; cases h
    | ok r =>
      rw [hr] at h
      cases h
      exact ⟨q.1, q.2, r.1, rfl, hr, rfl⟩

theorem chainRun_block_of {ops : NodeOps S P C} {sr n : Nat} {t : Int} {ds ds' L : List (Dsp P)} {x u v : Nat → Nat → S}
    {es : List (ChainEvent C)} (h : chainBlock ops sr t n ds x = .ok (u, ds'))
    (h' : chainRun ops sr ds' es (later n x) = .ok (v, L)) :
    chainRun ops sr ds (.block t n :: es) x = .ok (followed n u v, L) := by
  simp only [chainRun, bind, Except.bind]
  rw [h]
  dsimp only
  rw [h']
  rfl

theorem chainRun_change {ops : NodeOps S P C} {sr : Nat} {i : Id} {c : C} {d : Dsp P} {L : List (Dsp P)}
    {x y : Nat → Nat → S} {es : List (ChainEvent C)} (h : chainRun ops sr [d] (.change i c :: es) x = .ok (y, L)) :
    if d.id = i then ∃ s, ops.change d.state c = .ok s ∧ chainRun ops sr [{ d with state := s }] es x = .ok (y, L)
    else chainRun ops sr [d] es x = .ok (y, L) := by
  by_cases hd : d.id = i
  · rw [if_pos hd]
    cases hc : ops.change d.state c with
    | error e => simp [chainRun, chainChange, hd, hc, bind, Except.bind, pure, Except.pure] at h
    | ok s =>
      refine ⟨s, rfl, ?_⟩
      simpa [chainRun, chainChange, hd, hc, bind, Except.bind, pure, Except.pure] using h
  · rw [if_neg hd]
    simpa [chainRun, chainChange, hd, bind, Except.bind, pure, Except.pure] using h

theorem chainRun_change_of {ops : NodeOps S P C} {sr : Nat} {i : Id} {c : C} {d : Dsp P} {s : P}
    {x : Nat → Nat → S} {es : List (ChainEvent C)} (hd : d.id = i) (hc : ops.change d.state c = .ok s) :
    chainRun ops sr [d] (.change i c :: es) x = chainRun ops sr [{ d with state := s }] es x := by
  simp [chainRun, chainChange, hd, hc, bind, Except.bind, pure, Except.pure]

/-- What comes out of a node of the kind. -/
theorem Embeds.chainRun (E : Embeds a b f own) {sr : Nat} (es : List (ChainEvent D)) :
    ∀ {d : Dsp P} {x y : Nat → Nat → S} {L : List (Dsp Q)}, Rawdio.chainRun b sr [d.within f] es x = .ok (y, L) →
    ∃ d' : Dsp P, Rawdio.chainRun a sr [d] (es.filterMap (ChainEvent.seen d.id own)) x = .ok (y, [d']) := by
  induction es with
  | nil =>
    intro d x y L h
    cases h
    exact ⟨d, rfl⟩
  | cons e es ih =>
    intro d x y L h
    cases e with
    | change i r =>
      have hc := chainRun_change h
      by_cases hd : d.id = i
      · rw [if_pos (show (d.within f).id = i from hd)] at hc
        obtain ⟨s, h1, h2⟩ := hc
        rw [show (d.within f).state = f d.state from rfl, E.change] at h1
        cases ho : own r with
        | none => rw [ho] at h1; cases h1
        | some c =>
          rw [ho] at h1
          dsimp only at h1
          cases hs : a.change d.state c with
          | error e => rw [hs] at h1; cases h1
          | ok s' =>
            rw [hs] at h1
            cases h1
            obtain ⟨d', hd'⟩ := ih (d := { d with state := s' }) h2
            refine ⟨d', ?_⟩
            rw [List.filterMap_cons_some (b := .change d.id c) (by simp [ChainEvent.seen, hd, ho]),
              chainRun_change_of rfl hs]
            exact hd'
      · rw [if_neg (show ¬ (d.within f).id = i from hd)] at hc
        rw [List.filterMap_cons_none (by simp [ChainEvent.seen, Ne.symm hd])]
        exact ih hc
    | block t n =>
      obtain ⟨u, ds', v, h1, h2, rfl⟩ := chainRun_block h
      obtain ⟨z, s, h3, rfl, rfl⟩ := chainBlock_single h1
      rw [show (d.within f).state = f d.state from rfl, E.run] at h3
      cases hr : a.run d.state ⟨n, sr, t, window (d.within f).inputCount n x, window (d.within f).outputCount n silence⟩ with
      | error e => rw [hr] at h3; cases h3
      | ok r =>
        rw [hr] at h3
        cases h3
        obtain ⟨d', hd'⟩ := ih (d := { d with state := r.2 }) h2
        refine ⟨d', ?_⟩
        rw [List.filterMap_cons_some (f := ChainEvent.seen _ own) (b := ChainEvent.block t n) rfl]
        exact chainRun_block_of (chainBlock_of (s := r.2) (z := r.1) hr) hd'

/-- The frames that a node sees. -/
theorem total_seen (i : Id) (own : D → Option C) (es : List (ChainEvent D)) :
    ChainEvent.total (es.filterMap (ChainEvent.seen i own)) = ChainEvent.total es := by
  induction es with
  | nil => rfl
  | cons e es ih =>
    cases e with
    | change j r =>
      by_cases hj : j = i
      · cases ho : own r with
        | none =>
          rw [List.filterMap_cons_none (by simp [ChainEvent.seen, hj, ho]), ih]
          simp [ChainEvent.total, ChainEvent.frames]
        | some c =>
          rw [List.filterMap_cons_some (b := .change i c) (by simp [ChainEvent.seen, hj, ho])]
          simpa [ChainEvent.total, ChainEvent.frames] using ih
      · rw [List.filterMap_cons_none (by simp [ChainEvent.seen, hj]), ih]
        simp [ChainEvent.total, ChainEvent.frames]
    | block t n =>
      rw [List.filterMap_cons_some (f := ChainEvent.seen _ own) (b := ChainEvent.block t n) rfl]
      simpa [ChainEvent.total, ChainEvent.frames] using ih

theorem mem_seen {i : Id} {own : D → Option C} {es : List (ChainEvent D)} {e : ChainEvent C}
    (h : e ∈ es.filterMap (ChainEvent.seen i own)) : match e with
      | .change j c => j = i ∧ ∃ r, own r = some c ∧ .change i r ∈ es
      | .block t n => .block t n ∈ es := by
  obtain ⟨x, hx, hs⟩ := List.mem_filterMap.mp h
  cases x with
  | change j r =>
    simp only [ChainEvent.seen] at hs
    split at hs
    · rename_i hj
      subst hj
      obtain ⟨c, hc, rfl⟩ := Option.map_eq_some_iff.mp hs
      exact ⟨rfl, r, hc, hx⟩
    · cases hs
  | block t n =>
    cases hs
    exact hx

end embed

namespace MixedNode

variable (N : Platform) (al : Int → Nat → Nat → Nat → Nat × Nat)

theorem embeds_effect : Embeds (Fx.ops N) (ops N al) effect MixedRequest.parameter? where
  run s blk := by
    simp only [ops, run, bind, Except.bind]
    cases (Fx.ops N).run s blk <;> rfl
  change s r := by
    cases r with
    | parameter c =>
      simp only [ops, change, MixedRequest.parameter?, bind, Except.bind]
      cases (Fx.ops N).change s c <;> rfl
    | _ => rfl

theorem embeds_mixer : Embeds (MixerNode.ops al) (ops N al) mixer MixedRequest.level? where
  run s blk := by
    simp only [ops, run, bind, Except.bind]
    cases (MixerNode.ops al).run s blk <;> rfl
  change s r := by
    cases r with
    | level c =>
      simp only [ops, change, MixedRequest.level?, bind, Except.bind]
      cases (MixerNode.ops al).change s c <;> rfl
    | _ => rfl

theorem embeds_adsr : Embeds AdsrNode.ops (ops N al) adsr MixedRequest.adsr? where
  run s blk := by
    simp only [ops, run, bind, Except.bind]
    cases AdsrNode.ops.run s blk <;> rfl
  change s r := by
    cases r with
    | adsr c =>
      simp only [ops, change, MixedRequest.adsr?, bind, Except.bind]
      cases AdsrNode.ops.change s c <;> rfl
    | _ => rfl

theorem embeds_sampler : Embeds Sampler.ops (ops N al) sampler MixedRequest.sampler? where
  run s blk := by
    simp only [ops, run, bind, Except.bind]
    cases Sampler.ops.run s blk <;> rfl
  change s r := by
    cases r with
    | sampler c =>
      simp only [ops, change, MixedRequest.sampler?, bind, Except.bind]
      cases Sampler.ops.change s c <;> rfl
    | _ => rfl

end MixedNode

/-! ## Mixers -/

namespace MixerNode

variable {al : Int → Nat → Nat → Nat → Nat × Nat} {inputs outputs sr : Nat} {level : Nat → Nat → ℝ} {m : Mixer}

theorem run_ok (h : m.Agrees inputs outputs level) {n : Nat} (hn : 0 < n) (t : Int) (x : Nat → Nat → ℝ) :
    ∃ m' y, (ops al).run ⟨inputs, outputs, m⟩ ⟨n, sr, t, window inputs n x, window outputs n silence⟩ =
        .ok (y, ⟨inputs, outputs, m'⟩) ∧ m'.Agrees inputs outputs level ∧
      ∀ c < outputs, ∀ f < n, y c f = ∑ j ∈ Finset.range inputs, x j f * effectiveGain (level j c) := by
  obtain ⟨m', out, h1, h2, _, h4, h5⟩ := h.block (al t)
    (input := Fx.buffer inputs n sr (window inputs n x)) (output := Fx.buffer outputs n sr (window outputs n silence))
    (Fx.buffer_wf ..) (Fx.buffer_wf ..) trivial rfl
  refine ⟨m', fun c f => (out.view c f).getD 0, ?_, h2, ?_⟩
  · simp only [ops, run, bind, Except.bind]
    rw [h1]
    rfl
  · intro c hc f hf
    refine Fx.view_written (y := fun c f => ∑ j ∈ Finset.range inputs, x j f * effectiveGain (level j c)) h4 ?_ hc hf
    intro c hc f hf
    rw [h5 c f hc hf]
    have h0 : (Fx.buffer outputs n sr (window outputs n silence)).sampleOr0 c f = 0 := by
      rw [Buf.sampleOr0, Fx.buffer_sample hc hf, window, if_pos ⟨hc, hf⟩]
      rfl
    rw [h0, zero_add]
    congr 1
    refine Finset.sum_congr rfl ?_
    intro j hj
    have hj : j < inputs := Finset.mem_range.mp hj
    rw [Buf.sampleOr0, Fx.buffer_sample hj hf, window, if_pos ⟨hj, hf⟩]
    rfl

theorem set_ok (h : m.Agrees inputs outputs level) (r : SetLevel) (hi : r.input < inputs) (ho : r.output < outputs) :
    ∃ m', (ops al).change ⟨inputs, outputs, m⟩ r = .ok ⟨inputs, outputs, m'⟩ ∧
      m'.Agrees inputs outputs (setLevelOf level r.input r.output r.level.linear) := by
  obtain ⟨g, e1, e2, e3, e4, e5⟩ := MixerMatrix.setLevel_ok h.gain (i := r.input) (o := r.output)
    (by rw [h.inputs]; exact hi) (by rw [h.outputs]; exact ho) r.level
  refine ⟨⟨g, m.channel ++ [g], m.processorMatrix⟩, ?_, ?_⟩
  · simp only [ops, setLevel, bind, Except.bind]
    rw [e1]
    rfl
  · rw [h.levels] at e5
    refine ⟨e2, e3.trans h.inputs, e4.trans h.outputs, e5, ?_⟩
    unfold Mixer.processEvents
    simp only [List.foldl_append, List.foldl_cons, List.foldl_nil]
    exact ⟨e2, e5⟩

theorem set_range (h : m.Agrees inputs outputs level) (r : SetLevel) {s : MixerNode}
    (hs : (ops al).change ⟨inputs, outputs, m⟩ r = .ok s) : r.input < inputs ∧ r.output < outputs := by
  by_contra hc
  simp only [ops, setLevel, bind, Except.bind] at hs
  have : m.gainMatrix.setLevel r.input r.output r.level = .error .panic := by
    unfold MixerMatrix.setLevel MixerMatrix.getIndex
    rw [h.inputs, h.outputs, if_neg hc]
    rfl
  rw [this] at hs
  cases hs

/-- What comes out of a mixer. -/
theorem heard (i : Id) (es : List (ChainEvent SetLevel)) (hes : ∀ e ∈ es, 0 < e.frames ∨ ∃ r, e = .change i r) :
    ∀ {level : Nat → Nat → ℝ} {m : Mixer} {x y : Nat → Nat → ℝ} {L : List (Dsp MixerNode)} (z : Nat → Nat → ℝ),
    m.Agrees inputs outputs level →
    chainRun (ops al) sr [⟨i, inputs, outputs, ⟨inputs, outputs, m⟩⟩] es x = .ok (y, L) →
    ∀ c F, F < ChainEvent.total es → y c F = if c < outputs then
      ∑ j ∈ Finset.range inputs, x j F * effectiveGain ((levelTrack level es).getD F z j c) else 0 := by
  induction es with
  | nil => intro level m x y L z _ _ c F hF; simp [ChainEvent.total] at hF
  | cons e es ih =>
    intro level m x y L z hm h c F hF
    have hes' : ∀ e ∈ es, 0 < e.frames ∨ ∃ r, e = .change i r := fun e he => hes e (List.mem_cons_of_mem _ he)
    cases e with
    | change j r =>
      obtain hh | ⟨r', hh⟩ := hes _ List.mem_cons_self
      · simp [ChainEvent.frames] at hh
      cases hh
      have hc := chainRun_change h
      rw [if_pos rfl] at hc
      obtain ⟨s, h1, h2⟩ := hc
      obtain ⟨r1, r2⟩ := set_range hm r h1
      obtain ⟨m', g1, g2⟩ := set_ok (al := al) hm r r1 r2
      rw [g1] at h1
      cases h1
      exact ih hes' z g2 h2 c F (by simpa [ChainEvent.total, ChainEvent.frames] using hF)
    | block t n =>
      obtain hn | ⟨r', hh⟩ := hes _ List.mem_cons_self
      swap
      · cases hh
      have hn : 0 < n := hn
      obtain ⟨u, ds', v, h1, h2, rfl⟩ := chainRun_block h
      obtain ⟨w, s, h3, rfl, rfl⟩ := chainBlock_single h1
      obtain ⟨m', y', g1, g2, g3⟩ := run_ok (al := al) (sr := sr) hm hn t x
      dsimp only at h3
      rw [g1] at h3
      cases h3
      have ht : ChainEvent.total (.block t n :: es) = n + ChainEvent.total es := by
        simp [ChainEvent.total, ChainEvent.frames]
      rw [ht] at hF
      simp only [followed, levelTrack]
      by_cases hFn : F < n
      · rw [if_pos hFn, clip]
        by_cases hc : c < outputs
        · rw [if_pos ⟨hc, hFn⟩, if_pos hc, g3 c hc F hFn, List.getD_append _ _ _ _ (by simpa using hFn),
            List.getD_replicate _ hFn]
        · rw [if_neg (fun h => hc h.1), if_neg hc]
      · rw [if_neg hFn, ih hes' z g2 h2 c (F - n) (by omega),
          List.getD_append_right _ _ _ _ (by simp; omega), List.length_replicate]
        have : n + (F - n) = F := by omega
        simp only [later, this]

end MixerNode

/-! ## ADSR envelopes -/

namespace AdsrNode

variable {sr mf : Nat}

theorem before_eq : (EventProcessor.before : AdsrEvent → AdsrEvent → Bool) =
    fun a b => decide (a.time < b.time ∨ (a.time = b.time ∧ a.sequenceNumber ≤ b.sequenceNumber)) := by
  funext a b
  simp [EventProcessor.before, TimedEvent.time, TimedEvent.sequenceNumber]

/-- The state of a node between blocks, after `waiting` has been sent and not taken effect. -/
structure Holds (sr mf : Nat) (waiting : List AdsrEvent) (e : AdsrEnvelope) (p : AdsrProcessor) : Prop where
  rate : p.events.sampleRate = sr
  capacity : p.capacity = mf
  sorted : InTimeOrder p.events.pending
  waits : waiting = p.events.pending ++ p.events.channel
  envelope : p.envelope = e

theorem received {waiting : List AdsrEvent} {e : AdsrEnvelope} {p : AdsrProcessor} (h : Holds sr mf waiting e p) :
    p.events.receiveEvents.pending = waiting.mergeSort EventProcessor.before := by
  rw [h.waits]
  unfold EventProcessor.receiveEvents
  split
  · rename_i hc
    rw [hc, List.append_nil]
    refine (List.mergeSort_of_pairwise ?_).symm
    refine h.sorted.imp ?_
    intro a b hab
    rw [before_eq]
    simpa [TimedEvent.time, TimedEvent.sequenceNumber] using hab
  · have := EventProcessor.foldl_push p.events.channel (fun _ _ => rfl) p.events.pending
    simp only [this]

/-- What `adsrTrack` does in a block. -/
noncomputable def stepped (sr : Nat) (waiting : List AdsrEvent) (e : AdsrEnvelope) (t : Int) (n : Nat) :
    AdsrEnvelope × List ℝ :=
  adsrValues (((waiting.mergeSort EventProcessor.before).filter fun x =>
    decide (x.time < t + Timestamp.fromSamples (n : ℚ) sr)).map fun x => (frameOf t x.time sr, x.eventType)) 0 n e

/-- What waits after a block. -/
noncomputable def left (sr : Nat) (waiting : List AdsrEvent) (t : Int) (n : Nat) : List AdsrEvent :=
  (waiting.mergeSort EventProcessor.before).filter fun x => decide (t + Timestamp.fromSamples (n : ℚ) sr ≤ x.time)

theorem track_block (waiting : List AdsrEvent) (e : AdsrEnvelope) (t : Int) (n : Nat)
    (es : List (ChainEvent AdsrEvent)) : adsrTrack sr waiting e (.block t n :: es) =
      (stepped sr waiting e t n).2 ++ adsrTrack sr (left sr waiting t n) (stepped sr waiting e t n).1 es := by
  simp only [adsrTrack, stepped, left, before_eq]

theorem stepped_length (waiting : List AdsrEvent) (e : AdsrEnvelope) (t : Int) (n : Nat) :
    (stepped sr waiting e t n).2.length = n := adsrValues_length ..

theorem run_ok (hsr : 0 < sr) {waiting : List AdsrEvent} {e : AdsrEnvelope} {p : AdsrProcessor}
    (h : Holds sr mf waiting e p) {n : Nat} (hn : 0 < n) (hnm : n ≤ mf) (hlen : n * sr ≤ 2 ^ 33) (ch : Nat) (t : Int)
    (x : Nat → Nat → ℝ) :
    ∃ p' y, ops.run ⟨ch, p⟩ ⟨n, sr, t, window ch n x, window ch n silence⟩ = .ok (y, ⟨ch, p'⟩) ∧
      Holds sr mf (left sr waiting t n) (stepped sr waiting e t n).1 p' ∧
      ∀ c < ch, ∀ f < n, y c f = x c f * (stepped sr waiting e t n).2.getD f 0 := by
  have hrec := received h
  have hsort : InTimeOrder p.events.receiveEvents.pending := EventProcessor.receive_sorted p.events h.sorted
  obtain ⟨q, hq, hq1, hq2, hq3, hq4, hq5, hq6⟩ := AdsrProcessor.prepare_eq (p := p) (n := n) (start := t)
    (by rw [h.rate]; exact hsr) hn (by rw [h.rate]; exact hlen) (by rw [h.capacity]; exact hnm) (EventProcessor.inTimeOrder_time hsort)
  rw [h.rate, h.envelope, hrec] at hq1 hq2
  rw [h.rate, hrec] at hq6
  have hfun : (fun x : AdsrEvent => decide (t + Timestamp.fromSamples (n : ℚ) sr ≤ x.time)) =
      (fun e : AdsrEvent => !decide (e.time < Timestamp.incrementedBySamples t n sr)) := by
    funext x
    unfold Timestamp.incrementedBySamples
    by_cases h : x.time < t + Timestamp.fromSamples (n : ℚ) sr
    · have : ¬ t + Timestamp.fromSamples (n : ℚ) sr ≤ x.time := by omega
      simp [h, this]
    · have : t + Timestamp.fromSamples (n : ℚ) sr ≤ x.time := by omega
      simp [h, this]
  rw [← hfun] at hq6
  refine ⟨q, fun c f => if c < ch ∧ f < n then ((window ch n x c f).getD 0) * q.values f else
      ((window ch n silence c f).getD 0), ?_, ⟨?_, hq3.trans h.capacity, ?_, ?_, hq1⟩, ?_⟩
  · simp only [ops, run, AdsrProcessor.processAudio, bind, Except.bind, min_self]
    rw [hq]
    simp only [pure, Except.pure]
    have hm : min n q.capacity = n := by rw [hq3, h.capacity]; exact min_eq_left hnm
    rw [hm]
  · rw [hq4, AdsrProcessor.receive_rate]; exact h.rate
  · rw [hq6, ← hrec]; exact hsort.filter _
  · rw [hq5, Sampler.receive_channel, hq6, List.append_nil]; rfl
  · intro c hc f hf
    dsimp only
    rw [if_pos ⟨hc, hf⟩, window, if_pos ⟨hc, hf⟩, hq2 f hf,
      List.getD_eq_getElem _ _ (by rw [stepped_length]; exact hf)]
    rfl

/-- What comes out of an ADSR envelope. -/
theorem heard (hsr : 0 < sr) (hlen : mf * sr ≤ 2 ^ 33) (i : Id) (ch : Nat) (es : List (ChainEvent AdsrEvent))
    (hes : ∀ e ∈ es, (0 < e.frames ∧ e.frames ≤ mf) ∨ ∃ r, e = .change i r) :
    ∀ {waiting : List AdsrEvent} {e : AdsrEnvelope} {p : AdsrProcessor} {x y : Nat → Nat → ℝ}
    {L : List (Dsp AdsrNode)}, Holds sr mf waiting e p → chainRun ops sr [⟨i, ch, ch, ⟨ch, p⟩⟩] es x = .ok (y, L) →
    ∀ c F, F < ChainEvent.total es → y c F = if c < ch then x c F * (adsrTrack sr waiting e es).getD F 0 else 0 := by
  induction es with
  | nil => intro waiting e p x y L _ _ c F hF; simp [ChainEvent.total] at hF
  | cons ev es ih =>
    intro waiting e p x y L hp h c F hF
    have hes' : ∀ e ∈ es, (0 < e.frames ∧ e.frames ≤ mf) ∨ ∃ r, e = .change i r :=
      fun e he => hes e (List.mem_cons_of_mem _ he)
    cases ev with
    | change j r =>
      obtain hh | ⟨r', hh⟩ := hes _ List.mem_cons_self
      · simp [ChainEvent.frames] at hh
      cases hh
      have hc := chainRun_change h
      rw [if_pos rfl] at hc
      obtain ⟨s, h1, h2⟩ := hc
      cases h1
      refine ih hes' (waiting := waiting ++ [r]) (e := e) ?_ h2 c F
        (by simpa [ChainEvent.total, ChainEvent.frames] using hF)
      exact ⟨hp.rate, hp.capacity, hp.sorted, by rw [hp.waits, List.append_assoc], hp.envelope⟩
    | block t n =>
      obtain hn | ⟨r', hh⟩ := hes _ List.mem_cons_self
      swap
      · cases hh
      obtain ⟨hn, hnm⟩ : 0 < n ∧ n ≤ mf := hn
      obtain ⟨u, ds', v, h1, h2, rfl⟩ := chainRun_block h
      obtain ⟨w, s, h3, rfl, rfl⟩ := chainBlock_single h1
      obtain ⟨p', y', g1, g2, g3⟩ := run_ok hsr hp hn hnm (le_trans (Nat.mul_le_mul_right _ hnm) hlen) ch t x
      dsimp only at h3
      rw [g1] at h3
      cases h3
      have ht : ChainEvent.total (.block t n :: es) = n + ChainEvent.total es := by
        simp [ChainEvent.total, ChainEvent.frames]
      rw [ht] at hF
      rw [track_block]
      simp only [followed]
      by_cases hFn : F < n
      · rw [if_pos hFn, clip]
        by_cases hc : c < ch
        · rw [if_pos ⟨hc, hFn⟩, if_pos hc, g3 c hc F hFn,
            List.getD_append _ _ _ _ (by rw [stepped_length]; exact hFn)]
        · rw [if_neg (fun h => hc h.1), if_neg hc]
      · rw [if_neg hFn, ih hes' g2 h2 c (F - n) (by omega),
          List.getD_append_right _ _ _ _ (by rw [stepped_length]; omega), stepped_length]
        have : n + (F - n) = F := by omega
        simp only [later, this]

theorem holds_new (sr mf : Nat) :
    Holds sr mf [] (AdsrEnvelope.new sr 0 0 (Level.fromDb 0) 0) (AdsrProcessor.new sr mf) :=
  ⟨rfl, rfl, List.Pairwise.nil, rfl, rfl⟩

end AdsrNode

/-! ## All kinds -/

namespace Mixer

theorem splitter_ok : ∃ m, monoToStereoSplitter = .ok m ∧ m.Agrees 1 2 NodeKind.splitter.levels := by
  obtain ⟨m0, e1, e2, e3⟩ := Agrees.new (inputs := 1) (outputs := 2) (by omega) (by omega)
  obtain ⟨m1, d1, d2, d3⟩ := e2.set (i := 0) (o := 0) (by omega) (by omega) Level.unity (by rw [e3]; decide)
  obtain ⟨m2, b1, b2, b3⟩ := d2.set (i := 0) (o := 1) (by omega) (by omega) Level.unity (by rw [d3, e3]; decide)
  refine ⟨m2, ?_, ?_⟩
  · unfold monoToStereoSplitter
    simp only [e1, d1, b1, bind, Except.bind]
  · have : NodeKind.splitter.levels = setLevelOf (setLevelOf (fun _ _ => 0) 0 0 Level.unity.linear) 0 1 Level.unity.linear := by
      funext i o
      have : Level.unity.linear = 1 := rfl
      simp only [NodeKind.levels, setLevelOf, this]
      by_cases hi : i = 0
      · subst hi
        by_cases h1 : o = 1
        · simp [h1]
        · by_cases h0 : o = 0
          · simp [h0]
          · have : ¬ o < 2 := by omega
            simp [h1, h0, this]
      · simp [hi]
    rw [this]
    exact b2

theorem unity_ok {n : Nat} (hn : n ≤ 8) : ∃ m, unity n = .ok m ∧ m.Agrees n n (NodeKind.unity n).levels := by
  obtain ⟨m0, e1, e2, e3⟩ := Agrees.new hn hn
  obtain ⟨m, d1, d2, d3⟩ := e2.unity n n (le_refl _) (by rw [e3]; simp only [List.length_nil]; omega)
  refine ⟨m, ?_, d2⟩
  unfold unity
  rw [e1]
  exact d1

end Mixer

namespace NodeKind

variable {N : Platform} {al : Int → Nat → Nat → Nat → Nat × Nat} {sr mf : Nat}

/-- Kinds of mixers. -/
def Mixes : NodeKind → Prop
  | mixer _ _ => True
  | splitter => True
  | unity _ => True
  | _ => False

theorem make_mixer {k : NodeKind} (hk : k.Mixes) (hu : k.Usable) (i : Id) : ∃ m, k.make sr mf i =
    .ok ⟨i, k.inputs, k.outputs, .mixer ⟨k.inputs, k.outputs, m⟩⟩ ∧ m.Agrees k.inputs k.outputs k.levels := by
  cases k with
  | mixer a b =>
    obtain ⟨m, h1, h2, _⟩ := Mixer.Agrees.new hu.1 hu.2
    exact ⟨m, by simp only [make, h1, bind, Except.bind]; rfl, h2⟩
  | splitter =>
    obtain ⟨m, h1, h2⟩ := Mixer.splitter_ok
    exact ⟨m, by simp only [make, h1, bind, Except.bind]; rfl, h2⟩
  | unity n =>
    obtain ⟨m, h1, h2⟩ := Mixer.unity_ok hu
    exact ⟨m, by simp only [make, h1, bind, Except.bind]; rfl, h2⟩
  | _ => cases hk

theorem make_ok (hm : 0 < mf) (i : Id) (k : NodeKind) (hk : k.Usable) :
    ∃ d, k.make sr mf i = .ok d ∧ d.id = i ∧ d.inputCount = k.inputs ∧ d.outputCount = k.outputs := by
  have hmix : k.Mixes → ∃ d, k.make sr mf i = .ok d ∧ d.id = i ∧ d.inputCount = k.inputs ∧
      d.outputCount = k.outputs := by
    intro h
    obtain ⟨m, h1, _⟩ := make_mixer h hk i
    exact ⟨_, h1, rfl, rfl, rfl⟩
  cases k with
  | effect k =>
    obtain ⟨d, h1, h2, h3, h4⟩ := Fx.make_ok (sr := sr) hm i k hk
    refine ⟨d.within .effect, ?_, h2, h3, h4⟩
    simp only [make, h1, bind, Except.bind]
    rfl
  | mixer a b => exact hmix trivial
  | splitter => exact hmix trivial
  | unity n => exact hmix trivial
  | adsr n => exact ⟨_, rfl, rfl, rfl, rfl⟩
  | sampler s f => exact ⟨_, rfl, rfl, rfl, rfl⟩

/-- What comes out of a node. -/
theorem node_makes (hz : ∀ x, N.isZero x = true → x = 0) (ho : ∀ x, N.isOne x = true → x = 1) (hsr : 0 < sr)
    (hsr' : sr < 2 ^ 32) (hm : 0 < mf) (hlen : mf * sr ≤ 2 ^ 33) (i : Id) (k : NodeKind) (hk : k.Usable)
    (d : Dsp MixedNode) (hd : k.make sr mf i = .ok d) (es : List (ChainEvent MixedRequest))
    (hes : ∀ e ∈ es, match e with | .change _ r => r.Proper | .block _ n => 0 < n ∧ n ≤ mf)
    {x y : ℕ → ℕ → ℝ} {L : List (Dsp MixedNode)} (h : chainRun (MixedNode.ops N al) sr [d] es x = .ok (y, L)) :
    k.Makes sr (ChainEvent.total es) i es x y := by
  have hmix : k.Mixes → ∀ c F, F < ChainEvent.total es → y c F = k.mixed i es x c F := by
    intro hk' c F hF
    obtain ⟨m, h1, h2⟩ := make_mixer (sr := sr) (mf := mf) hk' hk i
    rw [hd] at h1
    cases h1
    obtain ⟨d', h'⟩ := (MixedNode.embeds_mixer N al).chainRun es
      (d := ⟨i, k.inputs, k.outputs, ⟨k.inputs, k.outputs, m⟩⟩) h
    rw [← total_seen i MixedRequest.level? es] at hF
    refine MixerNode.heard i _ ?_ k.levels h2 h' c F hF
    intro e he
    have := mem_seen he
    cases e with
    | change j c => exact .inr ⟨c, by rw [this.1]⟩
    | block t n => exact .inl (hes _ this).1
  cases k with
  | effect k =>
    intro hs c F hF
    obtain ⟨d0, h1, h2, h3, h4⟩ := Fx.make_ok (sr := sr) hm i k hk
    have hd' : (Except.ok (d0.within MixedNode.effect) : Res (Dsp MixedNode)) = .ok d := by
      rw [← hd]
      simp only [make, h1, bind, Except.bind]
      rfl
    cases hd'
    obtain ⟨d', h'⟩ := (MixedNode.embeds_effect N al).chainRun es h
    rw [h2] at h'
    have ht := total_seen i MixedRequest.parameter? es
    refine Fx.node_heard hz ho hsr hm i k hk d0 h1 _ ?_ (by rw [ht]; exact hs) _ _ h' c F (by rw [ht]; exact hF)
    intro e he
    have := mem_seen he
    cases e with
    | change j c => exact .inr ⟨j, c, rfl⟩
    | block t n => exact .inl (hes _ this)
  | mixer a b => exact hmix trivial
  | splitter => exact hmix trivial
  | unity n => exact hmix trivial
  | adsr n =>
    intro c F hF
    cases hd
    obtain ⟨d', h'⟩ := (MixedNode.embeds_adsr N al).chainRun es (d := ⟨i, n, n, ⟨n, AdsrProcessor.new sr mf⟩⟩) h
    rw [← total_seen i MixedRequest.adsr? es] at hF
    refine AdsrNode.heard hsr hlen i n _ ?_ (AdsrNode.holds_new sr mf) h' c F hF
    intro e he
    have := mem_seen he
    cases e with
    | change j c => exact .inr ⟨c, by rw [this.1]⟩
    | block t n => exact .inl (hes _ this)
  | sampler sample fade =>
    cases hd
    obtain ⟨d', h'⟩ := (MixedNode.embeds_sampler N al).chainRun es (d := ⟨i, 0, sample.channels, Sampler.new sr sample fade⟩) h
    obtain ⟨f, t, outs, h1, h2⟩ := Sampler.chain_run hlen i (es.filterMap (ChainEvent.seen i MixedRequest.sampler?))
      (s := Sampler.new sr sample fade) (acc := []) (Sampler.new_good sr hsr hsr' sample fade hk) rfl (by simp) (by
        intro e he
        have := mem_seen he
        cases e with
        | change j c =>
          obtain ⟨rfl, r, hr, hr'⟩ := this
          refine ⟨rfl, ?_⟩
          have := hes _ hr'
          cases r with
          | sampler e => cases hr; exact this
          | _ => cases hr
        | block t n => exact hes _ this) h'
    refine ⟨f, t, outs, h1, ?_⟩
    intro c F hF
    exact h2 c F (by rw [total_seen]; exact hF)

/-! ### Nodes that render all blocks -/

/-- States of nodes that render all blocks. -/
inductive Sound (sr mf : Nat) : NodeKind → Dsp MixedNode → Prop
  | effect {k : FxKind} {d : Dsp FxNode} (hu : k.Usable) (hn : k.NotOscillator) (h : Fx.Sound sr mf [(d.id, k)] d) :
    Sound sr mf (effect k) (d.within .effect)
  | oscillator {f : ℝ} {n : Nat} {table : List ℝ} {d : Dsp FxNode} (hf : ¬ Irrational f) (h : Fx.Steady sr d) :
    Sound sr mf (.effect (.oscillator f n table)) (d.within .effect)
  | tuned {f : ℝ} {n : Nat} {table : List ℝ} {d : Dsp FxNode} (hf : 0 < f) (hi : Irrational f) (h : Fx.Tuned sr f d) :
    Sound sr mf (.effect (.oscillator f n table)) (d.within .effect)
  | mixer {k : NodeKind} {i : Id} {m : Mixer} {level : Nat → Nat → ℝ} (hk : k.Mixes)
    (h : m.Agrees k.inputs k.outputs level) :
    Sound sr mf k ⟨i, k.inputs, k.outputs, .mixer ⟨k.inputs, k.outputs, m⟩⟩
  | adsr {n : Nat} {i : Id} {w : List AdsrEvent} {e : AdsrEnvelope} {p : AdsrProcessor} (h : AdsrNode.Holds sr mf w e p) :
    Sound sr mf (adsr n) ⟨i, n, n, .adsr ⟨n, p⟩⟩
  | sampler {sample : Grid ℝ} {fade : Fade ℝ} {d : Dsp (Sampler ℝ)} (h : Sampler.Sound sr d) :
    Sound sr mf (sampler sample fade) (d.within .sampler)

theorem Sound.block (hz : ∀ x, N.isZero x = true → x = 0) (ho : ∀ x, N.isOne x = true → x = 1) (hsr : 0 < sr)
    (hlen : mf * sr ≤ 2 ^ 33) {k : NodeKind} {d : Dsp MixedNode} (h : Sound sr mf k d) {n : Nat} (hn : 0 < n)
    (hnm : n ≤ mf) (t : Int) (x : ℕ → ℕ → ℝ) :
    ∃ y s, (MixedNode.ops N al).run d.state ⟨n, sr, t, window d.inputCount n x, window d.outputCount n silence⟩ =
      .ok (y, s) ∧ Sound sr mf k { d with state := s } := by
  cases h with
  | @effect k d hu hno h =>
    have H := Fx.fx_healthy (N := N) (mf := mf) (sr := sr) hz ho hsr (kinds := [(d.id, k)]) (by
      intro i k' hk'
      rw [List.mem_singleton] at hk'
      cases hk'
      exact ⟨hu, hno⟩)
    obtain ⟨y, s, h1⟩ := H.run d n t x h hn hnm
    refine ⟨y, .effect s, ?_, .effect (d := { d with state := s }) hu hno (H.keeps d n t x y s h hn hnm h1)⟩
    exact ((MixedNode.embeds_effect N al).run _ _).trans (by
      show Except.map _ ((Fx.ops N).run d.state ⟨n, sr, t, window d.inputCount n x, window d.outputCount n silence⟩) = _
      rw [h1]
      rfl)
  | @tuned f c table d hf hi h =>
    obtain ⟨y, s, h1, h2⟩ := Fx.tuned_block (N := N) hz ho hsr hf hi h (m := n) t x
    refine ⟨y, .effect s, ?_, .tuned (d := { d with state := s }) hf hi h2⟩
    exact ((MixedNode.embeds_effect N al).run _ _).trans (by
      show Except.map _ ((Fx.ops N).run d.state ⟨n, sr, t, window d.inputCount n x, window d.outputCount n silence⟩) = _
      rw [h1]
      rfl)
  | @oscillator f c table d hf h =>
    obtain ⟨y, s, h1, h2⟩ := Fx.steady_block (N := N) hz ho hsr h (m := n) t x
    refine ⟨y, .effect s, ?_, .oscillator (d := { d with state := s }) hf h2⟩
    exact ((MixedNode.embeds_effect N al).run _ _).trans (by
      show Except.map _ ((Fx.ops N).run d.state ⟨n, sr, t, window d.inputCount n x, window d.outputCount n silence⟩) = _
      rw [h1]
      rfl)
  | @mixer k i m level hk h =>
    obtain ⟨m', y, h1, h2, _⟩ := MixerNode.run_ok (al := al) (sr := sr) h hn t x
    refine ⟨y, .mixer ⟨k.inputs, k.outputs, m'⟩, ?_, .mixer hk h2⟩
    exact ((MixedNode.embeds_mixer N al).run _ _).trans (by
      dsimp only
      rw [h1]
      rfl)
  | @adsr c i w e p h =>
    obtain ⟨p', y, h1, h2, _⟩ := AdsrNode.run_ok hsr h hn hnm (le_trans (Nat.mul_le_mul_right _ hnm) hlen) c t x
    refine ⟨y, .adsr ⟨c, p'⟩, ?_, .adsr h2⟩
    exact ((MixedNode.embeds_adsr N al).run _ _).trans (by
      dsimp only
      rw [h1]
      rfl)
  | @sampler sample fade d h =>
    have H := Sampler.sampler_healthy (S := ℝ) mf sr hlen
    obtain ⟨y, s, h1⟩ := H.run d n t x h hn hnm
    refine ⟨y, .sampler s, ?_, .sampler (d := { d with state := s }) (H.keeps d n t x y s h hn hnm h1)⟩
    exact ((MixedNode.embeds_sampler N al).run _ _).trans (by
      show Except.map _ (Sampler.ops.run d.state ⟨n, sr, t, window d.inputCount n x, window d.outputCount n silence⟩) = _
      rw [h1]
      rfl)

theorem Sound.change (hz : ∀ x, N.isZero x = true → x = 0) (ho : ∀ x, N.isOne x = true → x = 1) (hsr : 0 < sr)
    (hlen : mf * sr ≤ 2 ^ 33) {k : NodeKind} {d : Dsp MixedNode} (h : Sound sr mf k d) {r : MixedRequest}
    (hr : k.Allows r) : ∃ s, (MixedNode.ops N al).change d.state r = .ok s ∧ Sound sr mf k { d with state := s } := by
  cases h with
  | @effect k d hu hno h =>
    have H := Fx.fx_healthy (N := N) (mf := mf) (sr := sr) hz ho hsr (kinds := [(d.id, k)]) (by
      intro i k' hk'
      rw [List.mem_singleton] at hk'
      cases hk'
      exact ⟨hu, hno⟩)
    cases r with
    | parameter r =>
      obtain ⟨s, h1, h2⟩ := H.change d r h (by
        intro k' hk'
        rw [List.mem_singleton] at hk'
        cases hk'
        cases k <;> first | exact hr | cases hno)
      refine ⟨.effect s, ?_, .effect (d := { d with state := s }) hu hno h2⟩
      refine ((MixedNode.embeds_effect N al).change d.state _).trans ?_
      simp only [MixedRequest.parameter?]
      rw [h1]
      rfl
    | _ => cases k <;> cases hr
  | @tuned f c table d hf hi h =>
    cases r with
    | parameter r =>
      obtain ⟨s, h1, h2⟩ := Fx.tuned_change (N := N) h (r := r) (by
        rcases hr with hr | ⟨_, ⟨q, t, hq, hr⟩ | hr⟩
        · exact .inl hr
        · exact .inr (.inl ⟨_, t, ⟨q, hq, rfl⟩, hr⟩)
        · exact .inr (.inr hr))
      refine ⟨.effect s, ?_, .tuned (d := { d with state := s }) hf hi h2⟩
      refine ((MixedNode.embeds_effect N al).change d.state _).trans ?_
      simp only [MixedRequest.parameter?]
      rw [h1]
      rfl
    | _ => cases hr
  | @oscillator f c table d hf h =>
    cases r with
    | parameter r =>
      have hr : r.name = "gain" := hr.resolve_right fun h => hf h.1
      have H := Fx.steady_healthy (N := N) (mf := mf) hz ho hsr (I := fun _ => False) (A := fun _ _ => True)
        ⟨fun _ _ _ _ h => h.elim, fun _ _ _ _ _ _ h => h.elim, fun _ _ h => h.elim⟩ (fun _ => True)
      obtain ⟨s, h1, h2⟩ := H.change d r (.inr ⟨trivial, h⟩) ⟨trivial, fun _ => hr⟩
      obtain h2 | h2 := h2
      · cases h2
      refine ⟨.effect s, ?_, .oscillator (d := { d with state := s }) hf h2.2⟩
      refine ((MixedNode.embeds_effect N al).change d.state _).trans ?_
      simp only [MixedRequest.parameter?]
      rw [h1]
      rfl
    | _ => cases hr
  | @mixer k i m level hk h =>
    cases r with
    | level r =>
      have hio : r.input < k.inputs ∧ r.output < k.outputs := by
        cases k <;> first | exact hr | cases hk
      obtain ⟨m', h1, h2⟩ := MixerNode.set_ok (al := al) h r hio.1 hio.2
      refine ⟨.mixer ⟨k.inputs, k.outputs, m'⟩, ?_, .mixer hk h2⟩
      refine ((MixedNode.embeds_mixer N al).change _ _).trans ?_
      simp only [MixedRequest.level?]
      rw [h1]
      rfl
    | _ => cases k <;> first | cases hk; done | cases hr; done
  | @adsr c i w e p h =>
    cases r with
    | adsr x =>
      refine ⟨.adsr (AdsrNode.send ⟨c, p⟩ x), rfl, .adsr (w := w ++ [x]) (e := e) ?_⟩
      exact ⟨h.rate, h.capacity, h.sorted, by rw [h.waits, List.append_assoc], h.envelope⟩
    | _ => cases hr
  | @sampler sample fade d h =>
    cases r with
    | sampler x =>
      obtain ⟨s, h1, h2⟩ := (Sampler.sampler_healthy (S := ℝ) mf sr hlen).change d x h hr
      refine ⟨.sampler s, ?_, .sampler (d := { d with state := s }) h2⟩
      refine ((MixedNode.embeds_sampler N al).change d.state _).trans ?_
      simp only [MixedRequest.sampler?]
      rw [h1]
      rfl
    | _ => cases hr

/-- Nodes of some kinds. -/
theorem mixed_healthy (hz : ∀ x, N.isZero x = true → x = 0) (ho : ∀ x, N.isOne x = true → x = 1) (hsr : 0 < sr)
    (hlen : mf * sr ≤ 2 ^ 33) (kinds : List (Id × NodeKind)) :
    Healthy (MixedNode.ops N al) mf sr (fun d => ∃ k, (d.id, k) ∈ kinds ∧ Sound sr mf k d)
      (fun i r => ∀ k, (i, k) ∈ kinds → k.Allows r) where
  run := by
    rintro d n t x ⟨k, _, h⟩ hn hnm
    obtain ⟨y, s, h1, _⟩ := h.block (al := al) hz ho hsr hlen hn hnm t x
    exact ⟨y, s, h1⟩
  keeps := by
    rintro d n t x y s ⟨k, hk, h⟩ hn hnm h1
    obtain ⟨y', s', h2, h3⟩ := h.block (al := al) hz ho hsr hlen hn hnm t x
    rw [h1] at h2
    cases h2
    exact ⟨k, hk, h3⟩
  change := by
    rintro d r ⟨k, hk, h⟩ hr
    obtain ⟨s, h1, h2⟩ := h.change (al := al) hz ho hsr hlen (hr k hk)
    exact ⟨s, h1, k, hk, h2⟩

/-- New nodes. -/
theorem new_sound (hm : 0 < mf) (hsr : 0 < sr) (hsr' : sr < 2 ^ 32) {i : Id} {k : NodeKind} (hk : k.Usable)
    (hr : k.Renders sr) {d : Dsp MixedNode} (hd : k.make sr mf i = .ok d) : Sound sr mf k d := by
  have hmix : k.Mixes → Sound sr mf k d := by
    intro h
    obtain ⟨m, h1, h2⟩ := make_mixer (sr := sr) (mf := mf) h hk i
    rw [hd] at h1
    cases h1
    exact .mixer h h2
  cases k with
  | effect k =>
    obtain ⟨d0, h1, h2, h3, h4⟩ := Fx.make_ok (sr := sr) hm i k hk
    have hd' : (Except.ok (d0.within MixedNode.effect) : Res (Dsp MixedNode)) = .ok d := by
      rw [← hd]
      simp only [make, h1, bind, Except.bind]
      rfl
    cases hd'
    have hno : k.NotOscillator → Sound sr mf (.effect k) (d0.within .effect) := by
      intro hno
      exact .effect hk hno (Fx.new_sound (i := d0.id) hm hsr (by simp) hk hno (by rw [h2]; exact h1))
    cases k with
    | oscillator f n table =>
      cases h1
      by_cases hi : Irrational f
      · refine .tuned hr.1 hi ⟨rfl, rfl, hk.1, Oscillator.new table, 0, 0, .new realArith f, .new realArith 1, rfl, hk.2.1,
          le_refl _, ?_, rfl, Fx.inTune_new f, rfl⟩
        exact ⟨le_rfl, zero_le_one, 0, by simp [Oscillator.new]⟩
      · refine .oscillator hi ⟨rfl, rfl, hk.1, Oscillator.new table, f, 0, .new realArith f, .new realArith 1, rfl, hk.2.1,
          hr.1, fun n => hr.2 (n + 1) (by omega), ?_, rfl, Fx.quiet_new _ _, rfl⟩
        exact ⟨le_rfl, zero_le_one, 0, by simp [Oscillator.new]⟩
    | _ => exact hno trivial
  | mixer a b => exact hmix trivial
  | splitter => exact hmix trivial
  | unity n => exact hmix trivial
  | adsr n =>
    cases hd
    exact .adsr (AdsrNode.holds_new sr mf)
  | sampler s f =>
    cases hd
    exact .sampler (d := ⟨i, 0, s.channels, Sampler.new sr s f⟩)
      ⟨Sampler.new sr s f, [], Sampler.new_good sr hsr hsr' s f hk, by simp, rfl, rfl, rfl⟩

end NodeKind
end Rawdio
