import Verif.Lemmas.MeterSpec
import Verif.Lemmas.RecorderNode
import Verif.Props.Envelope

/-! Helper lemmas: meters in an engine. -/

namespace Rawdio

open Processor Network

/-! ## More fuel -/

theorem Periodic.catchUp_mono {I : ℚ} (g : Nat) : ∀ {f : Nat} {n r : ℚ}, catchUp I f n = .ok r →
    catchUp I (f + g) n = .ok r := by
  intro f
  induction f with
  | zero => intro n r h; cases h
  | succ f ih =>
    intro n r h
    rw [catchUp] at h
    rw [Nat.add_right_comm, catchUp]
    split
    · rename_i hn
      rw [if_pos hn] at h
      exact ih h
    · rename_i hn
      rw [if_neg hn] at h
      exact h

theorem Periodic.advance_mono {p : Periodic} (g : Nat) {f n : Nat} {r : Periodic × Bool} (h : p.advance f n = .ok r) :
    p.advance (f + g) n = .ok r := by
  unfold advance at h ⊢
  simp only [bind, Except.bind] at h ⊢
  cases hc : catchUp p.notificationInterval f (p.nextNotification - n) with
  | error e => rw [hc] at h; cases h
  | ok v =>
    rw [hc] at h
    rw [catchUp_mono g hc]
    exact h

namespace EnvelopeNode

theorem notify_mono {e : EnvelopeNode} (g : Nat) {f : Nat} {input : Buf ℝ} {r : EnvelopeNode}
    (h : e.notify f input = .ok r) : e.notify (f + g) input = .ok r := by
  unfold notify at h ⊢
  simp only [bind, Except.bind] at h ⊢
  cases hc : e.notification.advance f input.frameCount with
  | error e => rw [hc] at h; cases h
  | ok v =>
    rw [hc] at h
    rw [Periodic.advance_mono g hc]
    exact h

theorem loop_mono (g k : Nat) {f : Nat} {input : Buf ℝ} : ∀ {rounds : Nat} {e r : EnvelopeNode} {position : Nat},
    loop f input rounds e position = .ok r → loop (f + g) input (rounds + k) e position = .ok r := by
  intro rounds
  induction rounds with
  | zero => intro e r p h; cases h
  | succ n ih =>
    intro e r p h
    rw [loop] at h
    rw [Nat.add_right_comm, loop]
    split
    · rename_i hp
      rw [if_pos hp] at h
      simp only [bind, Except.bind] at h ⊢
      cases h1 : (List.range input.channelCount).foldlM (channelStep input p
          (min input.frameCount e.notification.samplesUntilNextNotification)) e with
      | error e => rw [h1] at h; cases h
      | ok e1 =>
        rw [h1] at h
        dsimp only at h ⊢
        cases h2 : e1.notify f input with
        | error e => rw [h2] at h; cases h
        | ok e2 =>
          rw [h2] at h
          rw [notify_mono g h2]
          exact ih h
    · rename_i hp
      rw [if_neg hp] at h
      exact h

theorem process_mono {e r : EnvelopeNode} {f : Nat} {input : Buf ℝ} (h : e.processAudio f f input = .ok r) (g : Nat) :
    e.processAudio (g + f) (g + f) input = .ok r := by
  rw [Nat.add_comm]
  exact loop_mono g g h

/-- A block that is too short for the loop. -/
theorem short_block {f : Nat} {input : Buf ℝ} (hi : input.WF) (hn : input.frameCount < input.channelCount) :
    ∀ {rounds : Nat} {e r : EnvelopeNode} {position : Nat}, position ≤ input.frameCount →
    loop f input rounds e position ≠ .ok r := by
  intro rounds
  induction rounds with
  | zero => intro e r p _ h; cases h
  | succ n ih =>
    intro e r p hp h
    rw [loop, if_pos (by omega)] at h
    simp only [bind, Except.bind] at h
    cases h1 : (List.range input.channelCount).foldlM (channelStep input p
        (min input.frameCount e.notification.samplesUntilNextNotification)) e with
    | error e => rw [h1] at h; cases h
    | ok e1 =>
      rw [h1] at h
      dsimp only at h
      have hle : p + min input.frameCount e.notification.samplesUntilNextNotification ≤ input.frameCount := by
        obtain ⟨cc, hcc⟩ : ∃ cc, input.channelCount = cc + 1 := ⟨input.channelCount - 1, by omega⟩
        rw [hcc, List.range_succ_eq_map, List.foldlM_cons] at h1
        simp only [bind, Except.bind, channelStep] at h1
        obtain ⟨l, hl, hlen, _⟩ := Buf.channelData_spec input hi (Loc.ofChannel 0) (by simp [Loc.ofChannel]; omega)
          (by simp [Loc.ofChannel])
        simp only [Loc.ofChannel, Nat.sub_zero] at hlen hl h1
        rw [hl] at h1
        dsimp only at h1
        by_contra hgt
        have : sliceRange l p (p + min input.frameCount e.notification.samplesUntilNextNotification) = Except.error Fault.panic := by
          unfold sliceRange
          rw [if_neg (by omega)]
        rw [this] at h1
        cases h1
      cases h2 : e1.notify f input with
      | error e => rw [h2] at h; cases h
      | ok e2 =>
        rw [h2] at h
        exact ih hle h

end EnvelopeNode

/-! ## One block -/

namespace MeterNode

variable {m : MeterKind} {sr : Nat}

/-- A meter that has done what it should over these blocks. -/
structure Keeps (m : MeterKind) (sr : Nat) (x : Nat → Nat → ℝ) (bs : List (Nat × Nat)) (T : Nat) (s : MeterNode) : Prop where
  count : s.channelCount = m.channels
  ok : s.node.Ok m.channels (m.interval sr) T
  room : s.node.channel.length ≤ 64
  ends : ∀ b ∈ bs, b.1 + b.2 ≤ T
  envelopes : ∀ c < m.channels, s.node.envelopes[c]? =
    some ((Follower.new sr m.attackTime m.releaseTime).run ((inspectedFrames (m.interval sr) bs).map (x c)))
  peaks : ∀ c < m.channels, s.node.peaks[c]? =
    some (m.peak sr (inspectedFrames (m.interval sr) bs) (x c) ((reportTimes (m.interval sr) bs).getLastD 0) T)
  sent : s.taken ++ s.node.notifications ++ s.node.channel = m.reports sr bs x

theorem keeps_new (hsr : 0 < sr) (hf : 0 < m.frequency) (i : Id) (x : Nat → Nat → ℝ) {d : Dsp MeterNode}
    (h : make sr i m.channels m.attackTime m.releaseTime m.frequency = .ok d) :
    d.id = i ∧ d.inputCount = m.channels ∧ d.outputCount = m.channels ∧ Keeps m sr x [] 0 d.state ∧
      d.state.node.channel = [] := by
  obtain ⟨e, e1, e2, e3, e4, e5⟩ := EnvelopeNode.new_ok sr m.channels m.attackTime m.releaseTime m.frequency hsr hf
  have hn : e.notifications = [] := by
    unfold EnvelopeNode.new at e1
    simp only [bind, Except.bind] at e1
    cases hp : Periodic.new sr m.frequency with
    | error e => rw [hp] at e1; cases e1
    | ok p => rw [hp] at e1; cases e1; rfl
  simp only [make, e1, bind, Except.bind] at h
  cases h
  refine ⟨rfl, rfl, rfl, ⟨rfl, e2, by simp [e3], by simp, ?_, ?_, ?_⟩, e3⟩
  · intro c hc
    simp [e4, hc, inspectedFrames, Follower.run]
  · intro c hc
    simp [e5, hc, inspectedFrames, MeterKind.peak, peakOf]
  · simp [e3, hn, MeterKind.reports, reportTimes]

theorem buffer_samples {channels n : Nat} (rate T : Nat) (x : Nat → Nat → ℝ) {c k : Nat} (hc : c < channels) (hk : k ≤ n) :
    (Fx.buffer channels n rate (window channels n (later T x))).firstSamples c k = (List.range' T k).map (x c) := by
  rw [Buf.firstSamples, List.range'_eq_map_range, List.map_map]
  apply List.map_congr_left
  intro f hf
  have := List.mem_range.mp hf
  rw [Buf.sampleOr0, Fx.buffer_sample hc (by omega), window, if_pos ⟨hc, by omega⟩]
  rfl

/-- The number of reports of a block. -/
noncomputable def sentBy (m : MeterKind) (sr T n : Nat) : Nat :=
  m.channels * (reportTimes (m.interval sr) [(T, n)]).length

open Classical in
theorem block_ok {x : Nat → Nat → ℝ} {bs : List (Nat × Nat)} {T : Nat} {s : MeterNode} (h : Keeps m sr x bs T s) (n : Nat)
    (hpos : 0 < m.channels) (hst : m.Steady sr [(T, n)])
    (hroom : s.node.channel.length + sentBy m sr T n ≤ 64) :
    ∃ e, unbounded (fun fuel => s.node.processAudio fuel fuel
        (Fx.buffer s.channelCount n sr (window m.channels n (later T x)))) = .ok e ∧
      Keeps m sr x (bs ++ [(T, n)]) (T + n) { s with node := e } ∧
      e.channel.length = s.node.channel.length + sentBy m sr T n ∧ e.notifications = s.node.notifications := by
  rw [h.count]
  obtain ⟨buf, hbuf⟩ : ∃ b, Fx.buffer m.channels n sr (window m.channels n (later T x)) = b := ⟨_, rfl⟩
  have hwf : buf.WF := by rw [← hbuf]; exact Fx.buffer_wf ..
  have hcc : buf.channelCount = m.channels := by rw [← hbuf]; rfl
  have hfc : buf.frameCount = n := by rw [← hbuf]; rfl
  have hI := h.ok.notification.pos
  obtain ⟨s1, s2⟩ := hst (T, n) (by simp)
  have hu : m.channels ≤ s.node.notification.samplesUntilNextNotification := by
    have := (until_iff h.ok.notification (m.channels - 1)).mpr s2
    omega
  have hdue : DueWithin (m.interval sr) T (T + n) ↔
      ⌊(T : ℚ) / m.interval sr⌋ < ⌊((T + buf.frameCount : Nat) : ℚ) / m.interval sr⌋ := by
    rw [hfc]
    exact due_iff hI _ _
  obtain ⟨fuel, hfuel⟩ := exists_nat_gt ((buf.frameCount : ℚ) / m.interval sr + 1)
  have hfuel' : (buf.frameCount : ℚ) / m.interval sr + 1 < ((fuel + 2 : Nat) : ℚ) := by
    push_cast
    linarith
  have hsent : sentBy m sr T n = if DueWithin (m.interval sr) T (T + n) then m.channels else 0 := by
    rw [sentBy, times_block]
    split <;> simp
  obtain ⟨e, ps, r1, r2, r3, r4, r5, r6, r7⟩ := EnvelopeNode.last_round s.node buf hwf (m.interval sr) T
    (by rw [hcc]; exact h.ok) (fuel + 2) fuel hfuel' (by omega) (by rw [hcc, hfc]; exact le_min s1 hu)
    (fun hb => by
      rw [hcc]
      rw [hsent, if_pos (hdue.mpr hb)] at hroom
      exact hroom)
  rw [hcc, hfc] at r2
  rw [hcc] at r3
  obtain ⟨k, hk⟩ : ∃ k, min n s.node.notification.samplesUntilNextNotification = k := ⟨_, rfl⟩
  have hins : inspectedFrames (m.interval sr) [(T, n)] = List.range' T k := by
    rw [← hk]
    exact block_inspected h.ok.notification n
  have hkn : k ≤ n := by rw [← hk]; exact Nat.min_le_left ..
  have hnew : ∀ c < m.channels, e.envelopes[c]? = some ((Follower.new sr m.attackTime m.releaseTime).run
        ((inspectedFrames (m.interval sr) (bs ++ [(T, n)])).map (x c))) ∧
      ps[c]? = some (m.peak sr (inspectedFrames (m.interval sr) (bs ++ [(T, n)])) (x c)
        ((reportTimes (m.interval sr) bs).getLastD 0) (T + n)) := by
    intro c hc
    obtain ⟨q1, q2⟩ := r5 c _ _ (h.envelopes c hc) (h.peaks c hc)
    rw [hfc, hk, ← hbuf, buffer_samples sr T x hc hkn] at q1 q2
    rw [q1, q2, inspected_append, hins]
    constructor
    · rw [List.map_append, Follower.run_append]
    · rw [MeterKind.peak_new m sr (inspected_lt _ h.ends) k n hkn (x c) (last_le (times_le _ h.ends))]
  have hends : ∀ b ∈ bs ++ [(T, n)], b.1 + b.2 ≤ T + n := by
    intro b hb
    rcases List.mem_append.mp hb with hb | hb
    · have := h.ends b hb; omega
    · rw [List.mem_singleton] at hb; subst hb; exact le_refl _
  have hun : unbounded (fun fuel => s.node.processAudio fuel fuel buf) = .ok e :=
    unbounded_of (r := fun fuel => s.node.processAudio fuel fuel buf) (f := fuel + 2) (fun f y hy g => EnvelopeNode.process_mono hy g) r1
  obtain ⟨t1, t2⟩ := m.reports_snoc sr h.ends n k hins x
  by_cases hd : DueWithin (m.interval sr) T (T + n)
  · obtain ⟨c1, c2⟩ := r6 (hdue.mp hd)
    rw [hsent, if_pos hd] at hroom ⊢
    rw [hcc] at c1
    have hlen : e.channel.length = s.node.channel.length + m.channels := by rw [c1]; simp
    refine ⟨e, by rw [hbuf]; exact hun, ⟨rfl, r2, by show e.channel.length ≤ 64; omega, hends, fun c hc => (hnew c hc).1, ?_, ?_⟩, hlen, r4⟩
    · intro c hc
      rw [times_append, times_block, if_pos hd]
      show e.peaks[c]? = _
      rw [c2, List.getElem?_map, (hnew c hc).2]
      simp [MeterKind.peak_none]
    · show s.taken ++ e.notifications ++ e.channel = _
      rw [t1 hd, ← h.sent, r4, c1]
      simp only [List.append_assoc]
      congr 3
      apply List.map_congr_left
      intro c hc
      rw [(hnew c (List.mem_range.mp hc)).2]
      rfl
  · obtain ⟨c1, c2⟩ := r7 (fun hb => hd (hdue.mpr hb))
    rw [hsent, if_neg hd] at hroom ⊢
    refine ⟨e, by rw [hbuf]; exact hun, ⟨rfl, r2, by show e.channel.length ≤ 64; rw [c1]; exact h.room, hends, fun c hc => (hnew c hc).1, ?_, ?_⟩,
      by rw [c1]; rfl, r4⟩
    · intro c hc
      rw [times_append, times_block, if_neg hd, List.append_nil]
      show e.peaks[c]? = _
      rw [c2, (hnew c hc).2]
    · show s.taken ++ e.notifications ++ e.channel = _
      rw [t2 hd, ← h.sent, r4, c1]

theorem block_waits {x : Nat → Nat → ℝ} {bs : List (Nat × Nat)} {T : Nat} {s : MeterNode} (h : Keeps m sr x bs T s) (n : Nat)
    (hpos : 0 < m.channels) (hroom : 64 < s.node.channel.length + sentBy m sr T n) (e : EnvelopeNode) :
    unbounded (fun fuel => s.node.processAudio fuel fuel
      (Fx.buffer s.channelCount n sr (window m.channels n (later T x)))) ≠ .ok e := by
  intro hu
  rw [h.count] at hu
  obtain ⟨buf, hbuf⟩ : ∃ b, Fx.buffer m.channels n sr (window m.channels n (later T x)) = b := ⟨_, rfl⟩
  rw [hbuf] at hu
  have hwf : buf.WF := by rw [← hbuf]; exact Fx.buffer_wf ..
  have hcc : buf.channelCount = m.channels := by rw [← hbuf]; rfl
  have hfc : buf.frameCount = n := by rw [← hbuf]; rfl
  have hI := h.ok.notification.pos
  have hd : DueWithin (m.interval sr) T (T + n) := by
    by_contra hd
    rw [sentBy, times_block, if_neg hd] at hroom
    have := h.room
    simp at hroom
    omega
  have hsent : sentBy m sr T n = m.channels := by
    rw [sentBy, times_block, if_pos hd]
    simp
  obtain ⟨f, hf⟩ := unbounded_ok hu
  obtain ⟨fuel, hfuel⟩ := exists_nat_gt ((buf.frameCount : ℚ) / m.interval sr + 1)
  have h1 := EnvelopeNode.process_mono hf (fuel + 1)
  have hlt := (due_iff hI _ _).mp hd
  have h2 := EnvelopeNode.C68_waits s.node buf hwf (m.interval sr) T (by rw [hcc]; exact h.ok) (fuel + 1 + f) (fuel + f) (by
      push_cast
      have : (0 : ℚ) ≤ f := Nat.cast_nonneg f
      linarith) (by omega) h.room (by rw [hcc, ← hsent]; exact hroom)
    ((Periodic.crossed_iff hI _ _).mp (by rw [hfc]; exact hlt))
  rw [show fuel + f + 1 = fuel + 1 + f by omega] at h2
  rw [h2] at h1
  cases h1

/-! ## Events -/

/-- The blocks of events from frame `T` on. -/
def eventBlocks {C : Type} : Nat → List (ChainEvent C) → List (Nat × Nat)
  | _, [] => []
  | T, .change _ _ :: es => eventBlocks T es
  | T, .block _ n :: es => (T, n) :: eventBlocks (T + n) es

theorem eventBlocks_append {C : Type} (as bs : List (ChainEvent C)) : ∀ T,
    eventBlocks T (as ++ bs) = eventBlocks T as ++ eventBlocks (T + ChainEvent.total as) bs := by
  induction as with
  | nil => intro T; simp [eventBlocks, ChainEvent.total]
  | cons a as ih =>
    intro T
    cases a with
    | change i c => simp [eventBlocks, ih, RecorderSchedule.total_change]
    | block t n => simp [eventBlocks, ih, RecorderSchedule.total_block, Nat.add_assoc]

theorem eventBlocks_changes {C : Type} (cs : List (Id × C)) (T : Nat) :
    eventBlocks T (cs.map fun x => (.change x.1 x.2 : ChainEvent C)) = [] := by
  induction cs with
  | nil => rfl
  | cons c cs ih => exact ih

theorem eventBlocks_seen {C D : Type} (i : Id) (own : D → Option C) (es : List (ChainEvent D)) : ∀ T,
    eventBlocks T (es.filterMap (ChainEvent.seen i own)) = eventBlocks T es := by
  induction es with
  | nil => intro T; rfl
  | cons e es ih =>
    intro T
    cases e with
    | change j r =>
      cases hs : ChainEvent.seen i own (.change j r) with
      | none => rw [List.filterMap_cons_none hs, ih, eventBlocks]
      | some e =>
        rw [List.filterMap_cons_some hs]
        unfold ChainEvent.seen at hs
        dsimp only at hs
        split at hs
        · cases ho : own r with
          | none => rw [ho] at hs; cases hs
          | some c => rw [ho] at hs; cases hs; rw [eventBlocks, ih, eventBlocks]
        · cases hs
    | block t n =>
      rw [List.filterMap_cons_some (f := ChainEvent.seen i own) (b := ChainEvent.block t n) rfl, eventBlocks, ih, eventBlocks]

theorem tiles_le {full : Nat} {tiles : List (Nat × Nat)} : ∀ {a b : Nat}, Tiles full a b tiles → a ≤ b := by
  induction tiles with
  | nil => intro a b h; exact le_of_eq h
  | cons y ys ih =>
    intro a b h
    obtain ⟨_, _, _, _, h5⟩ := h
    have := ih h5
    omega

theorem callBlocks_full {full : Nat} (hf : 0 < full) (T n : Nat) :
    callBlocks full T (full + n) = (T, full) :: callBlocks full (T + full) n := by
  unfold callBlocks
  rw [Nat.add_div_left _ hf, Nat.add_mod_left, List.range_succ_eq_map, List.map_cons, List.map_map]
  simp only [Nat.zero_mul, Nat.add_zero, List.cons_append, Nat.succ_eq_add_one]
  congr 2
  · apply List.map_congr_left
    intro j _
    simp only [Function.comp_apply, Nat.succ_eq_add_one]
    congr 1
    ring
  · congr 3
    ring

theorem tiles_blocks {C : Type} {full : Nat} (hf : 0 < full) (time : Nat → Int) {tiles : List (Nat × Nat)} :
    ∀ {a b : Nat} (T : Nat), Tiles full a b tiles →
    eventBlocks T (tiles.map fun z => (.block (time z.1) z.2 : ChainEvent C)) = callBlocks full T (b - a) := by
  induction tiles with
  | nil =>
    intro a b T h
    obtain rfl : a = b := h
    simp [eventBlocks, callBlocks]
  | cons y ys ih =>
    obtain ⟨o, n⟩ := y
    intro a b T h
    obtain ⟨_, h2, h3, h4, h5⟩ := h
    have hle := tiles_le h5
    rw [List.map_cons, eventBlocks, ih (T + n) h5]
    by_cases hn : n = full
    · subst hn
      rw [show b - a = n + (b - (a + n)) by omega, callBlocks_full hf]
    · have hb : a + n = b := h4.resolve_left hn
      subst hb
      have e : callBlocks full T n = [(T, n)] := by
        unfold callBlocks
        rw [Nat.div_eq_of_lt (by omega), Nat.mod_eq_of_lt (by omega), if_neg (by omega)]
        simp
      rw [Nat.sub_self, Nat.add_sub_cancel_left, e]
      simp [callBlocks]

theorem blocksFrom_append (full : Nat) (as bs : List Nat) : ∀ T,
    blocksFrom full T (as ++ bs) = blocksFrom full T as ++ blocksFrom full (T + as.sum) bs := by
  induction as with
  | nil => intro T; simp [blocksFrom]
  | cons a as ih => intro T; simp [blocksFrom, ih, Nat.add_assoc]

/-- The blocks of a session are those of its process calls. -/
theorem history_eventBlocks {S P C : Type} {mf sr : Nat} (hm : 0 < mf) {changes : Nat → List (Id × C)}
    {ks : List (Call S P C)} {es : List (ChainEvent C)} (h : ChainHistory mf sr changes ks es) :
    eventBlocks 0 es = sessionBlocks mf ks := by
  induction h with
  | nil => rfl
  | @snoc ks es k bs h hb ih =>
    rw [eventBlocks_append, eventBlocks_append, eventBlocks_changes, List.append_nil, ih, RecorderNode.total_append,
      RecorderNode.total_changes, Nat.add_zero, Nat.zero_add, Chain.history_total h]
    obtain ⟨now, tiles, _, h2, rfl⟩ := hb
    rw [List.map_map]
    have := tiles_blocks (C := C) hm (fun o => Timestamp.incrementedBySamples now o sr) (framesIn ks) h2
    rw [sessionBlocks, sessionBlocks, List.map_append, blocksFrom_append]
    congr 1
    rw [Nat.zero_add, show (ks.map fun k => k.output.frameCount).sum = framesIn ks from rfl]
    simp only [List.map_cons, List.map_nil, blocksFrom, List.append_nil]
    exact this

/-! ## Sessions of one meter -/

theorem later_later {S : Type} (T n : Nat) (x : Nat → Nat → S) : later n (later T x) = later (T + n) x := by
  funext c f
  simp only [later, Nat.add_assoc]

theorem Keeps.change {x : Nat → Nat → ℝ} {bs : List (Nat × Nat)} {T : Nat} {s s' : MeterNode} (h : Keeps m sr x bs T s)
    (r : MeterRequest) (hs : ops.change s r = .ok s') : Keeps m sr x bs T s' ∧ s.taken <+: s'.taken ∧
      s'.node.channel.length ≤ s.node.channel.length := by
  cases r with
  | poll =>
    cases hs
    refine ⟨⟨h.count, ⟨h.ok.envelopes, h.ok.peaks, h.ok.notification⟩, by simp [EnvelopeNode.processNotifications],
      h.ends, h.envelopes, h.peaks, ?_⟩, List.prefix_rfl, by simp [EnvelopeNode.processNotifications]⟩
    rw [← h.sent]
    simp [EnvelopeNode.processNotifications]
  | take =>
    cases hs
    refine ⟨⟨h.count, ⟨h.ok.envelopes, h.ok.peaks, h.ok.notification⟩, h.room,
      h.ends, h.envelopes, h.peaks, ?_⟩, List.prefix_append .., le_refl _⟩
    rw [← h.sent]
    simp [EnvelopeNode.takeNotifications]

theorem steady_append {as bs : List (Nat × Nat)} : m.Steady sr (as ++ bs) ↔ m.Steady sr as ∧ m.Steady sr bs := by
  simp only [MeterKind.Steady, List.mem_append]
  constructor
  · intro h
    exact ⟨fun b hb => h b (.inl hb), fun b hb => h b (.inr hb)⟩
  · rintro ⟨h1, h2⟩ b (hb | hb)
    · exact h1 b hb
    · exact h2 b hb

/-- What a meter does in a session. -/
theorem run_keeps (hpos : 0 < m.channels) (i : Id) (x : Nat → Nat → ℝ) (es : List (ChainEvent MeterRequest)) :
    ∀ {s : MeterNode} {bs : List (Nat × Nat)} {T : Nat} {y : Nat → Nat → ℝ} {L : List (Dsp MeterNode)},
    Keeps m sr x bs T s → m.Steady sr (eventBlocks T es) →
    chainRun ops sr [⟨i, m.channels, m.channels, s⟩] es (later T x) = .ok (y, L) →
    ∃ s', L = [⟨i, m.channels, m.channels, s'⟩] ∧
      Keeps m sr x (bs ++ eventBlocks T es) (T + ChainEvent.total es) s' ∧ s.taken <+: s'.taken ∧ y = silence := by
  induction es with
  | nil =>
    intro s bs T y L hs _ h
    cases h
    exact ⟨s, rfl, by simpa [eventBlocks, ChainEvent.total] using hs, List.prefix_rfl, rfl⟩
  | cons e es ih =>
    intro s bs T y L hs hst h
    cases e with
    | change j c =>
      have hc := chainRun_change h
      rw [eventBlocks, RecorderSchedule.total_change]
      rw [eventBlocks] at hst
      by_cases hj : i = j
      · rw [if_pos hj] at hc
        obtain ⟨s1, h1, h2⟩ := hc
        obtain ⟨k1, k2, _⟩ := hs.change c h1
        obtain ⟨s', g1, g2, g3, g4⟩ := ih k1 hst h2
        exact ⟨s', g1, g2, k2.trans g3, g4⟩
      · rw [if_neg hj] at hc
        exact ih hs hst hc
    | block t n =>
      rw [eventBlocks, RecorderSchedule.total_block]
      rw [eventBlocks, ← List.singleton_append, steady_append] at hst
      obtain ⟨u, ds', v, h1, h2, rfl⟩ := chainRun_block h
      obtain ⟨z, s1, h3, rfl, rfl⟩ := chainBlock_single h1
      simp only [ops, bind, Except.bind] at h3
      cases hr : unbounded (fun fuel => s.node.processAudio fuel fuel
          (Fx.buffer s.channelCount n sr (window m.channels n (later T x)))) with
      | error e => rw [hr] at h3; cases h3
      | ok w =>
        rw [hr] at h3
        cases h3
        have hroom : s.node.channel.length + sentBy m sr T n ≤ 64 := by
          by_contra hgt
          exact block_waits hs n hpos (by omega) w hr
        obtain ⟨e, e1, e2, _, _⟩ := block_ok hs n hpos hst.1 hroom
        rw [hr] at e1
        cases e1
        rw [later_later] at h2
        obtain ⟨s', g1, g2, g3, g4⟩ := ih e2 hst.2 h2
        refine ⟨s', g1, ?_, g3, ?_⟩
        · rw [List.append_assoc, List.singleton_append, Nat.add_assoc] at g2
          exact g2
        · rw [g4]
          funext c f
          simp only [followed, clip, silence, window]
          split
          · split <;> rfl
          · rfl

/-! ## Places in the channel -/

/-- How many notifications are in the channel after some events, if there were `q`. -/
noncomputable def pending (m : MeterKind) (sr : Nat) (i : Id) : Nat → Nat → List (ChainEvent MeterRequest) → Nat
  | q, _, [] => q
  | q, T, .change j .poll :: es => if j = i then pending m sr i 0 T es else pending m sr i q T es
  | q, T, .change _ .take :: es => pending m sr i q T es
  | q, T, .block _ n :: es => pending m sr i (q + sentBy m sr T n) (T + n) es

/-- Whether there are always places. -/
def Fits (m : MeterKind) (sr : Nat) (i : Id) : Nat → Nat → List (ChainEvent MeterRequest) → Prop
  | _, _, [] => True
  | q, T, .change j .poll :: es => if j = i then Fits m sr i 0 T es else Fits m sr i q T es
  | q, T, .change _ .take :: es => Fits m sr i q T es
  | q, T, .block _ n :: es => q + sentBy m sr T n ≤ 64 ∧ Fits m sr i (q + sentBy m sr T n) (T + n) es

theorem pending_append (i : Id) (as bs : List (ChainEvent MeterRequest)) : ∀ q T,
    pending m sr i q T (as ++ bs) = pending m sr i (pending m sr i q T as) (T + ChainEvent.total as) bs := by
  induction as with
  | nil => intro q T; simp [pending, ChainEvent.total]
  | cons a as ih =>
    intro q T
    cases a with
    | change j c =>
      rw [RecorderSchedule.total_change]
      cases c with
      | poll => rw [List.cons_append, pending, pending, ih, ih]; split <;> rfl
      | take => rw [List.cons_append, pending, pending, ih]
    | block t n => rw [List.cons_append, pending, pending, ih, RecorderSchedule.total_block, Nat.add_assoc]

theorem fits_append (i : Id) (as bs : List (ChainEvent MeterRequest)) : ∀ q T,
    Fits m sr i q T (as ++ bs) ↔ Fits m sr i q T as ∧
      Fits m sr i (pending m sr i q T as) (T + ChainEvent.total as) bs := by
  induction as with
  | nil => intro q T; simp [Fits, pending, ChainEvent.total]
  | cons a as ih =>
    intro q T
    cases a with
    | change j c =>
      rw [RecorderSchedule.total_change]
      cases c with
      | poll => rw [List.cons_append, pending, Fits, Fits, ih, ih]; split <;> rfl
      | take => rw [List.cons_append, pending, Fits, Fits, ih]
    | block t n =>
      rw [List.cons_append, pending, Fits, Fits, ih, RecorderSchedule.total_block, Nat.add_assoc, and_assoc]

/-- The number of reports in some blocks. -/
noncomputable def sentIn (m : MeterKind) (sr : Nat) (bs : List (Nat × Nat)) : Nat :=
  m.channels * (reportTimes (m.interval sr) bs).length

theorem sentIn_append (as bs : List (Nat × Nat)) : sentIn m sr (as ++ bs) = sentIn m sr as + sentIn m sr bs := by
  rw [sentIn, times_append, List.length_append, Nat.mul_add]
  rfl

theorem pending_le (i : Id) (es : List (ChainEvent MeterRequest)) : ∀ q T,
    pending m sr i q T es ≤ q + sentIn m sr (eventBlocks T es) := by
  induction es with
  | nil => intro q T; simp [pending]
  | cons e es ih =>
    intro q T
    cases e with
    | change j c =>
      cases c with
      | poll =>
        rw [pending, eventBlocks]
        split
        · exact (ih 0 T).trans (by omega)
        · exact ih q T
      | take => exact ih q T
    | block t n =>
      rw [pending, eventBlocks, ← List.singleton_append, sentIn_append]
      refine (ih _ _).trans ?_
      rw [sentBy, sentIn, sentIn]
      omega

theorem fits_changes (i : Id) (cs : List (Id × MeterRequest)) : ∀ q T,
    Fits m sr i q T (cs.map fun x => .change x.1 x.2) := by
  induction cs with
  | nil => intro q T; trivial
  | cons c cs ih =>
    intro q T
    obtain ⟨j, c⟩ := c
    rw [List.map_cons]
    cases c with
    | poll => rw [Fits]; split <;> exact ih _ _
    | take => exact ih _ _

theorem pending_blocks (i : Id) (bs : List (Int × Nat)) : ∀ q T,
    q ≤ pending m sr i q T (bs.map fun b => .block b.1 b.2) := by
  induction bs with
  | nil => intro q T; exact le_refl _
  | cons b bs ih => intro q T; rw [List.map_cons, pending]; exact le_trans (by omega) (ih _ _)

theorem fits_blocks (i : Id) (bs : List (Int × Nat)) : ∀ q T,
    pending m sr i q T (bs.map fun b => .block b.1 b.2) ≤ 64 → Fits m sr i q T (bs.map fun b => .block b.1 b.2) := by
  induction bs with
  | nil => intro q T _; trivial
  | cons b bs ih =>
    intro q T h
    rw [List.map_cons, pending] at h
    rw [List.map_cons, Fits]
    exact ⟨le_trans (pending_blocks i bs _ _) h, ih _ _ h⟩

/-- What happens up to a process call, and its blocks. -/
theorem history_parts {S P C : Type} {mf sr : Nat} (hm : 0 < mf) {changes : Nat → List (Id × C)} {ks : List (Call S P C)}
    {es : List (ChainEvent C)} (h : ChainHistory mf sr changes ks es) (l : Nat) (hl : l < ks.length) :
    ∃ es1 es2, es = es1 ++ (changes l).map (fun x => .change x.1 x.2) ++ es2 ∧
      ChainEvent.total es1 = framesIn (ks.take l) ∧ eventBlocks 0 es1 = sessionBlocks mf (ks.take l) := by
  induction h with
  | nil => simp at hl
  | @snoc ks es k bs h hb ih =>
    by_cases hk : l < ks.length
    · obtain ⟨es1, es2, rfl, h2, h3⟩ := ih hk
      refine ⟨es1, _, by simp only [List.append_assoc]; rfl, ?_, ?_⟩
      · rw [List.take_append_of_le_length hk.le]; exact h2
      · rw [List.take_append_of_le_length hk.le]; exact h3
    · rw [List.length_append, List.length_singleton] at hl
      obtain rfl : l = ks.length := by omega
      refine ⟨es, _, rfl, ?_, ?_⟩
      · rw [List.take_left' rfl]; exact Chain.history_total h
      · rw [List.take_left' rfl]; exact history_eventBlocks hm h

/-- Since a poll. -/
theorem pending_since {S P : Type} {mf : Nat} (hm : 0 < mf) {changes : Nat → List (Id × MeterRequest)}
    {ks : List (Call S P MeterRequest)} {es : List (ChainEvent MeterRequest)} (h : ChainHistory mf sr changes ks es)
    (i : Id) {p : Nat} (hp : p < ks.length) (hpoll : p = 0 ∨ (i, .poll) ∈ changes p) :
    pending m sr i 0 0 es + sentIn m sr (sessionBlocks mf (ks.take p)) ≤ sentIn m sr (sessionBlocks mf ks) := by
  rw [← history_eventBlocks hm h]
  rcases hpoll with rfl | hpoll
  · have := pending_le (m := m) (sr := sr) i es 0 0
    simp only [List.take_zero, sessionBlocks, List.map_nil, blocksFrom, sentIn, reportTimes, List.filter_nil,
      List.length_nil, Nat.mul_zero, Nat.add_zero] at this ⊢
    omega
  · obtain ⟨es1, es2, rfl, h2, h3⟩ := history_parts hm h p hp
    obtain ⟨as, cs, hab⟩ := List.append_of_mem hpoll
    rw [← h3, hab, List.map_append, List.map_cons]
    simp only [List.append_assoc, List.cons_append]
    rw [← List.append_assoc, pending_append, pending, if_pos rfl]
    refine (Nat.add_le_add_right (pending_le ..) _).trans ?_
    have e1 := eventBlocks_append (es1 ++ as.map fun x => .change x.1 x.2)
      (.change i MeterRequest.poll :: (cs.map (fun x => .change x.1 x.2) ++ es2)) 0
    have e2 := eventBlocks_append es1 (as.map fun x => (.change x.1 x.2 : ChainEvent MeterRequest)) 0
    rw [e1, e2, sentIn_append, sentIn_append]
    simp only [eventBlocks]
    omega

theorem fits_session {S P : Type} {mf : Nat} (hm : 0 < mf) {changes : Nat → List (Id × MeterRequest)}
    {ks : List (Call S P MeterRequest)} {es : List (ChainEvent MeterRequest)} (h : ChainHistory mf sr changes ks es)
    (i : Id) (hpoll : ∀ l < ks.length, ∃ p ≤ l, (p = 0 ∨ (i, .poll) ∈ changes p) ∧
      sentIn m sr (sessionBlocks mf (ks.take (l + 1))) ≤ 64 + sentIn m sr (sessionBlocks mf (ks.take p))) :
    Fits m sr i 0 0 es := by
  have hall := h
  induction h with
  | nil => trivial
  | @snoc ks es k bs h hb ih =>
    obtain ⟨p, p1, p2, p3⟩ := hpoll ks.length (by simp)
    have h1 := pending_since (m := m) hm hall i (p := p) (by simp; omega) p2
    rw [List.take_of_length_le (by simp)] at p3
    rw [pending_append] at h1
    rw [fits_append, fits_append]
    refine ⟨⟨ih ?_ h, fits_changes ..⟩, fits_blocks _ _ _ _ (by omega)⟩
    intro l hl
    obtain ⟨p, q1, q2, q3⟩ := hpoll l (by simp; omega)
    rw [List.take_append_of_le_length (by omega), List.take_append_of_le_length (by omega)] at q3
    exact ⟨p, q1, q2, q3⟩

/-- A meter with room does what it is asked. -/
theorem run_ok (hpos : 0 < m.channels) (i : Id) (x : Nat → Nat → ℝ) (es : List (ChainEvent MeterRequest)) :
    ∀ {s : MeterNode} {bs : List (Nat × Nat)} {T q : Nat}, Keeps m sr x bs T s → m.Steady sr (eventBlocks T es) →
    s.node.channel.length ≤ q → Fits m sr i q T es →
    ∃ y d, chainRun ops sr [⟨i, m.channels, m.channels, s⟩] es (later T x) = .ok (y, [d]) := by
  induction es with
  | nil => intro s bs T q _ _ _ _; exact ⟨_, _, rfl⟩
  | cons e es ih =>
    intro s bs T q hs hst hq hf
    cases e with
    | change j c =>
      rw [eventBlocks] at hst
      by_cases hj : j = i
      · subst hj
        obtain ⟨s1, h1⟩ : ∃ s1, ops.change s c = .ok s1 := by cases c <;> exact ⟨_, rfl⟩
        obtain ⟨k1, _, k3⟩ := hs.change c h1
        rw [chainRun_change_of rfl (s := s1) h1]
        cases c with
        | poll =>
          rw [Fits, if_pos rfl] at hf
          cases h1
          exact ih k1 hst (by simp [EnvelopeNode.processNotifications]) hf
        | take => exact ih k1 hst (k3.trans hq) hf
      · have hf' : Fits m sr i q T es := by
          cases c with
          | poll => rw [Fits, if_neg hj] at hf; exact hf
          | take => exact hf
        obtain ⟨y, d, h⟩ := ih hs hst hq hf'
        refine ⟨y, d, ?_⟩
        rw [← h]
        simp [chainRun, chainChange, Ne.symm hj, bind, Except.bind, pure, Except.pure]
    | block t n =>
      rw [eventBlocks, ← List.singleton_append, steady_append] at hst
      rw [Fits] at hf
      obtain ⟨e, e1, e2, e3, _⟩ := block_ok hs n hpos hst.1 (by omega)
      obtain ⟨y, d, h⟩ := ih e2 hst.2 (q := q + sentBy m sr T n) (by show e.channel.length ≤ _; omega) hf.2
      rw [← later_later] at h
      refine ⟨_, d, chainRun_block_of (chainBlock_of (s := { s with node := e }) (z := ?_) ?_) h⟩
      · exact fun c f => (window m.channels n silence c f).getD 0
      · simp only [ops, e1, bind, Except.bind]
        rfl

end MeterNode

namespace MeterNode

variable {m : MeterKind} {sr : Nat}

/-- Requests alone send nothing. -/
theorem run_changes (i : Id) (x : Nat → Nat → ℝ) (cs : List (Id × MeterRequest)) :
    ∀ {s s' : MeterNode} {bs : List (Nat × Nat)} {T : Nat} {y : Nat → Nat → ℝ}, Keeps m sr x bs T s →
    chainRun ops sr [⟨i, m.channels, m.channels, s⟩] (cs.map fun z => .change z.1 z.2) (later T x) =
      .ok (y, [⟨i, m.channels, m.channels, s'⟩]) →
    Keeps m sr x bs T s' ∧ s'.node.channel.length ≤ s.node.channel.length := by
  induction cs with
  | nil =>
    intro s s' bs T y hs h
    cases h
    exact ⟨hs, le_refl _⟩
  | cons c cs ih =>
    intro s s' bs T y hs h
    have hc := chainRun_change h
    by_cases hj : i = c.1
    · rw [if_pos hj] at hc
      obtain ⟨s1, h1, h2⟩ := hc
      obtain ⟨k1, _, k3⟩ := hs.change c.2 h1
      obtain ⟨g1, g2⟩ := ih k1 h2
      exact ⟨g1, g2.trans k3⟩
    · rw [if_neg hj] at hc
      exact ih hs hc

/-- What has been taken when notifications have been polled and taken. -/
theorem session_taken (hpos : 0 < m.channels) (i : Id) (x : Nat → Nat → ℝ) {s s' : MeterNode}
    {es1 es2 : List (ChainEvent MeterRequest)} {cs : List (Id × MeterRequest)} (hs : Keeps m sr x [] 0 s)
    (hst : m.Steady sr (eventBlocks 0 (es1 ++ cs.map (fun z => .change z.1 z.2) ++ es2))) {y : Nat → Nat → ℝ}
    (h : chainRun ops sr [⟨i, m.channels, m.channels, s⟩] (es1 ++ cs.map (fun z => .change z.1 z.2) ++ es2) x =
      .ok (y, [⟨i, m.channels, m.channels, s'⟩]))
    (hc : [(i, MeterRequest.poll), (i, .take)].Sublist cs) : m.reports sr (eventBlocks 0 es1) x <+: s'.taken := by
  rw [List.cons_sublist_iff] at hc
  obtain ⟨p1, p2, rfl, hp1, hp2⟩ := hc
  obtain ⟨a1, a2, rfl⟩ := List.append_of_mem hp1
  obtain ⟨b1, b2, rfl⟩ := List.append_of_mem (List.singleton_sublist.mp hp2)
  have e : es1 ++ (a1 ++ (i, MeterRequest.poll) :: a2 ++ (b1 ++ (i, .take) :: b2)).map (fun z => .change z.1 z.2) ++ es2 =
      (es1 ++ a1.map (fun z => .change z.1 z.2)) ++ (.change i .poll :: ((a2 ++ b1).map (fun z => .change z.1 z.2) ++
        (.change i .take :: (b2.map (fun z => .change z.1 z.2) ++ es2)))) := by simp
  rw [e] at h hst
  have hx : x = later 0 x := by funext c f; simp [later]
  obtain ⟨u, ds, v, r1, r2⟩ := RecorderNode.run_split h
  rw [eventBlocks_append, steady_append] at hst
  rw [hx] at r1
  obtain ⟨s1, rfl, k1, _, _⟩ := run_keeps hpos i x _ hs hst.1 r1
  rw [eventBlocks_append, eventBlocks_changes, List.append_nil, List.nil_append] at k1
  rw [Nat.zero_add] at k1
  have hc1 := chainRun_change r2
  rw [if_pos rfl] at hc1
  obtain ⟨s2, q1, q2⟩ := hc1
  obtain ⟨k2, _, _⟩ := k1.change .poll q1
  obtain ⟨u2, ds2, v2, r3, r4⟩ := RecorderNode.run_split q2
  have hst2 := hst.2
  rw [eventBlocks, eventBlocks_append, steady_append, Nat.zero_add] at hst2
  obtain ⟨s3, rfl, k3, _, _⟩ := run_keeps hpos i x _ k2 hst2.1 r3
  obtain ⟨k3, l3⟩ := run_changes i x _ k2 r3
  rw [later_later, RecorderNode.total_changes, Nat.add_zero] at r4
  have hc2 := chainRun_change r4
  rw [if_pos rfl] at hc2
  obtain ⟨s4, q3, q4⟩ := hc2
  obtain ⟨k4, _, _⟩ := k3.change .take q3
  have hst4 := hst2.2
  rw [eventBlocks, RecorderNode.total_changes, Nat.add_zero] at hst4
  obtain ⟨s5, hL, _, k5, _⟩ := run_keeps hpos i x _ k4 hst4 q4
  cases hL
  refine List.IsPrefix.trans ?_ k5
  cases q1
  cases q3
  simp only [EnvelopeNode.processNotifications, List.length_nil, Nat.le_zero, List.length_eq_zero_iff] at l3
  rw [← k3.sent, l3, List.append_nil]
  exact List.prefix_rfl

/-- A block that is too short. -/
theorem run_short (i : Id) (es : List (ChainEvent MeterRequest)) :
    ∀ {s : MeterNode} {T : Nat} {x y : Nat → Nat → ℝ} {L : List (Dsp MeterNode)},
    s.channelCount = m.channels → (∃ b ∈ eventBlocks T es, b.2 < m.channels) →
    chainRun ops sr [⟨i, m.channels, m.channels, s⟩] es x ≠ .ok (y, L) := by
  induction es with
  | nil => intro s T x y L _ ⟨b, hb, _⟩; cases hb
  | cons e es ih =>
    intro s T x y L hs hb h
    cases e with
    | change j c =>
      have hc := chainRun_change h
      by_cases hj : i = j
      · rw [if_pos hj] at hc
        obtain ⟨s1, h1, h2⟩ := hc
        exact ih (by cases c <;> cases h1 <;> exact hs) hb h2
      · rw [if_neg hj] at hc
        exact ih hs hb hc
    | block t n =>
      obtain ⟨u, ds', v, h1, h2, rfl⟩ := chainRun_block h
      obtain ⟨z, s1, h3, rfl, rfl⟩ := chainBlock_single h1
      simp only [ops, bind, Except.bind] at h3
      cases hr : unbounded (fun fuel => s.node.processAudio fuel fuel
          (Fx.buffer s.channelCount n sr (window m.channels n x))) with
      | error e => rw [hr] at h3; cases h3
      | ok w =>
        rw [hr] at h3
        cases h3
        obtain ⟨b, hb, hlt⟩ := hb
        rw [eventBlocks, List.mem_cons] at hb
        rcases hb with rfl | hb
        · obtain ⟨f, hf⟩ := unbounded_ok hr
          exact EnvelopeNode.short_block (Fx.buffer_wf ..) (by
            show n < s.channelCount
            rw [hs]
            exact hlt) (Nat.zero_le _) hf
        · exact ih (s := { s with node := w }) hs ⟨b, hb, hlt⟩ h2

end MeterNode

/-! ## Among other nodes -/

theorem Embeds.chainRun_within {S P Q C D : Type} [Zero S] {a : NodeOps S P C} {b : NodeOps S Q D} {f : P → Q}
    {own : D → Option C} (E : Embeds a b f own) {sr : Nat} (es : List (ChainEvent D)) :
    ∀ {d : Dsp P} {x y : Nat → Nat → S} {L : List (Dsp Q)}, Rawdio.chainRun b sr [d.within f] es x = .ok (y, L) →
    ∃ d' : Dsp P, Rawdio.chainRun a sr [d] (es.filterMap (ChainEvent.seen d.id own)) x = .ok (y, [d']) ∧
      L = [d'.within f] := by
  induction es with
  | nil =>
    intro d x y L h
    cases h
    exact ⟨d, rfl, rfl⟩
  | cons e es ih =>
    intro d x y L h
    cases e with
    | change i r =>
      have hc := chainRun_change h
      by_cases hd : d.id = i
      · rw [if_pos (show (d.within f).id = i from hd)] at hc
        obtain ⟨s, h1, h2⟩ := hc
        rw [show (d.within f).state = f d.state from rfl, E.change] at h1
        cases ho : own r with
        | none => rw [ho] at h1; cases h1
        | some c =>
          rw [ho] at h1
          dsimp only at h1
          cases hs : a.change d.state c with
          | error e => rw [hs] at h1; cases h1
          | ok s' =>
            rw [hs] at h1
            cases h1
            obtain ⟨d', hd', hL⟩ := ih (d := { d with state := s' }) h2
            refine ⟨d', ?_, hL⟩
            rw [List.filterMap_cons_some (b := .change d.id c) (by simp [ChainEvent.seen, hd, ho]),
              chainRun_change_of rfl hs]
            exact hd'
      · rw [if_neg (show ¬ (d.within f).id = i from hd)] at hc
        rw [List.filterMap_cons_none (by simp [ChainEvent.seen, Ne.symm hd])]
        exact ih hc
    | block t n =>
      obtain ⟨u, ds', v, h1, h2, rfl⟩ := chainRun_block h
      obtain ⟨z, s, h3, rfl, rfl⟩ := chainBlock_single h1
      rw [show (d.within f).state = f d.state from rfl, E.run] at h3
      cases hr : a.run d.state ⟨n, sr, t, window (d.within f).inputCount n x, window (d.within f).outputCount n silence⟩ with
      | error e => rw [hr] at h3; cases h3
      | ok r =>
        rw [hr] at h3
        cases h3
        obtain ⟨d', hd', hL⟩ := ih (d := { d with state := r.2 }) h2
        refine ⟨d', ?_, hL⟩
        rw [List.filterMap_cons_some (f := ChainEvent.seen _ own) (b := ChainEvent.block t n) rfl]
        exact chainRun_block_of (chainBlock_of (s := r.2) (z := r.1) hr) hd'

namespace WithMeters

variable {P C : Type}

theorem embeds_other (others : NodeOps ℝ P C) : Embeds others (ops others) other Request.other? where
  run s b := by
    simp only [ops]
    cases others.run s b <;> rfl
  change s r := by
    cases r with
    | other c =>
      simp only [ops, Request.other?]
      cases others.change s c <;> rfl
    | meter r => rfl

theorem embeds_meter (others : NodeOps ℝ P C) : Embeds MeterNode.ops (ops others) meter Request.meter? where
  run s b := by
    simp only [ops]
    cases MeterNode.ops.run s b <;> rfl
  change s r := by
    cases r with
    | other c => rfl
    | meter r =>
      simp only [ops, Request.meter?]
      cases MeterNode.ops.change s r <;> rfl

end WithMeters
end Rawdio
