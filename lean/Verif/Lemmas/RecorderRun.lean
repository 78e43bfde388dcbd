import Verif.Lemmas.Recorder

/-! # Lemmas about histories of a recorder -/

namespace Rawdio

variable {S : Type}

open EventProcessor

/-! ## The queue -/

namespace RecorderEvent

/-- Before, strictly, in the order of the queue. -/
def Before (a b : RecorderEvent S) : Prop :=
  a.time < b.time ∨ (a.time = b.time ∧ a.sequenceNumber < b.sequenceNumber)

/-- `enqueue` for events. -/
def insert (e : RecorderEvent S) : List (RecorderEvent S) → List (RecorderEvent S)
  | [] => [e]
  | q :: qs => if q.time ≤ e.time then q :: insert e qs else e :: q :: qs

theorem insert_perm (e : RecorderEvent S) (l : List (RecorderEvent S)) : (insert e l).Perm (e :: l) := by
  induction l with
  | nil => exact List.Perm.refl _
  | cons q qs ih =>
    unfold insert
    split
    · exact (List.Perm.cons q ih).trans (List.Perm.swap e q qs)
    · exact List.Perm.refl _

theorem insert_sorted (e : RecorderEvent S) (l : List (RecorderEvent S)) (h : l.Pairwise Before)
    (hn : ∀ x ∈ l, x.sequenceNumber < e.sequenceNumber) : (insert e l).Pairwise Before := by
  induction l with
  | nil => exact List.pairwise_singleton _ _
  | cons q qs ih =>
    obtain ⟨h1, h2⟩ := List.pairwise_cons.mp h
    have hq := hn q List.mem_cons_self
    unfold insert
    split
    · rename_i ht
      refine List.pairwise_cons.mpr ⟨?_, ih h2 (fun x hx => hn x (List.mem_cons_of_mem _ hx))⟩
      intro x hx
      rcases List.mem_cons.mp ((insert_perm e qs).mem_iff.mp hx) with rfl | hx
      · unfold Before; omega
      · exact h1 x hx
    · rename_i ht
      refine List.pairwise_cons.mpr ⟨?_, h⟩
      intro x hx
      left
      rcases List.mem_cons.mp hx with rfl | hx
      · omega
      · have := h1 x hx
        unfold Before at this
        omega

theorem insert_requests (e : RecorderEvent S) (l : List (RecorderEvent S)) (h : l.Pairwise Before) :
    (insert e l).filterMap request = match e.request with
      | none => l.filterMap request
      | some q => enqueue q (l.filterMap request) := by
  have htime : ∀ {x : RecorderEvent S} {q}, x.request = some q → q.time = x.time := by
    intro x q hq
    unfold request at hq
    split at hq
    · injection hq with hq; subst hq; rfl
    · injection hq with hq; subst hq; rfl
    · cases hq
  induction l with
  | nil =>
    unfold insert
    cases hq : e.request <;> simp [hq, enqueue]
  | cons q qs ih =>
    obtain ⟨h1, h2⟩ := List.pairwise_cons.mp h
    have ih := ih h2
    unfold insert
    split
    · rename_i ht
      rw [List.filterMap_cons, List.filterMap_cons, ih]
      cases hq : q.request with
      | none => rfl
      | some r =>
        cases he : e.request with
        | none => rfl
        | some u =>
          simp only [enqueue]
          rw [if_pos (by rw [htime hq, htime he]; exact ht)]
    · rename_i ht
      rw [List.filterMap_cons]
      cases he : e.request with
      | none => rfl
      | some u =>
        simp only
        have hall : ∀ r ∈ (q :: qs).filterMap request, u.time < r.time := by
          intro r hr
          rw [List.mem_filterMap] at hr
          obtain ⟨x, hx, hxr⟩ := hr
          rw [htime hxr, htime he]
          rcases List.mem_cons.mp hx with rfl | hx
          · omega
          · have := h1 x hx
            unfold Before at this
            omega
        cases hl : (q :: qs).filterMap request with
        | nil => rfl
        | cons r rs =>
          simp only [enqueue]
          have := hall r (by rw [hl]; exact List.mem_cons_self)
          rw [if_neg (by omega)]

end RecorderEvent

open RecorderEvent

/-- Receiving events one after the other. -/
theorem insertAll (channel : List (RecorderEvent S)) :
    ∀ pending : List (RecorderEvent S), pending.Pairwise Before →
    channel.Pairwise (fun a b => a.sequenceNumber < b.sequenceNumber) →
    (∀ a ∈ pending, ∀ b ∈ channel, a.sequenceNumber < b.sequenceNumber) →
    (channel.foldl (fun l e => RecorderEvent.insert e l) pending).Pairwise Before ∧
    (channel.foldl (fun l e => RecorderEvent.insert e l) pending).Perm (pending ++ channel) ∧
    (channel.foldl (fun l e => RecorderEvent.insert e l) pending).filterMap request =
      (channel.filterMap request).foldl (fun l q => enqueue q l) (pending.filterMap request) := by
  induction channel with
  | nil => intro p hp _ _; simp [hp]
  | cons e es ih =>
    intro p hp hc hs
    obtain ⟨hc1, hc2⟩ := List.pairwise_cons.mp hc
    have h1 := insert_sorted e p hp (fun x hx => hs x hx e List.mem_cons_self)
    have h2 := insert_perm e p
    obtain ⟨i1, i2, i3⟩ := ih (RecorderEvent.insert e p) h1 hc2 (by
      intro a ha b hb
      rcases List.mem_cons.mp (h2.mem_iff.mp ha) with rfl | ha
      · exact hc1 b hb
      · exact hs a ha b (List.mem_cons_of_mem _ hb))
    refine ⟨i1, ?_, ?_⟩
    · refine i2.trans ((List.Perm.append_right es h2).trans ?_)
      simpa using (List.perm_middle (l₁ := p) (a := e) (l₂ := es)).symm
    · rw [List.foldl_cons, i3, insert_requests e p hp, List.filterMap_cons]
      cases e.request <;> rfl

theorem insertAll_sort {pending channel : List (RecorderEvent S)} (h1 : pending.Pairwise Before)
    (h2 : channel.Pairwise (fun a b => a.sequenceNumber < b.sequenceNumber))
    (h3 : ∀ a ∈ pending, ∀ b ∈ channel, a.sequenceNumber < b.sequenceNumber) :
    (pending ++ channel).mergeSort EventProcessor.before =
      channel.foldl (fun l e => RecorderEvent.insert e l) pending := by
  obtain ⟨i1, i2, -⟩ := insertAll channel pending h1 h2 h3
  have htr : ∀ a b c : RecorderEvent S, before a b = true → before b c = true → before a c = true := by
    intro a b c h1 h2
    rw [before_iff] at *
    omega
  have hto : ∀ a b : RecorderEvent S, (before a b || before b a) = true := by
    intro a b
    rw [Bool.or_eq_true, before_iff, before_iff]
    omega
  have hm := List.pairwise_mergeSort (le := before (E := RecorderEvent S)) htr hto (pending ++ channel)
  have hp : ((pending ++ channel).mergeSort before).Perm
      (channel.foldl (fun l e => RecorderEvent.insert e l) pending) :=
    (List.mergeSort_perm _ _).trans i2.symm
  refine hp.eq_of_pairwise (le := fun a b => before a b = true) ?_ hm ?_
  · intro a b ha hb hab hba
    rw [hp.mem_iff] at ha
    by_contra hne
    have hall : ∀ x ∈ channel.foldl (fun l e => RecorderEvent.insert e l) pending,
        ∀ y ∈ channel.foldl (fun l e => RecorderEvent.insert e l) pending,
        x ≠ y → Before x y ∨ Before y x := by
      have : Std.Symm (fun x y : RecorderEvent S => x ≠ y → Before x y ∨ Before y x) :=
        ⟨fun x y h hn => (h (Ne.symm hn)).symm⟩
      exact fun x hx y hy => List.Pairwise.forall_of_forall
        (R := fun x y : RecorderEvent S => x ≠ y → Before x y ∨ Before y x)
        (fun x _ h => absurd rfl h) (i1.imp (fun h _ => Or.inl h)) hx hy
    rw [before_iff] at hab hba
    simp only [TimedEvent.time, TimedEvent.sequenceNumber] at hab hba
    rcases hall a ha b hb hne with h | h <;> (unfold Before at h; omega)
  · refine i1.imp ?_
    intro a b h
    rw [before_iff]
    unfold Before at h
    simp only [TimedEvent.time, TimedEvent.sequenceNumber]
    omega

namespace Recorder

/-- The queue of a recorder is in order. -/
structure QueueOk (ch : Nat) (r : Recorder S) : Prop where
  sorted : r.processor.events.pending.Pairwise Before
  channel : r.processor.events.channel.Pairwise (fun a b => a.sequenceNumber < b.sequenceNumber)
  later : ∀ a ∈ r.processor.events.pending, ∀ b ∈ r.processor.events.channel,
    a.sequenceNumber < b.sequenceNumber
  bound : ∀ e ∈ r.processor.events.pending ++ r.processor.events.channel, e.sequenceNumber < r.nextNumber
  ok : ∀ e ∈ r.processor.events.pending ++ r.processor.events.channel, e.Ok ch

/-- The requests that wait. -/
def waiting (r : Recorder S) : List RecordRequest :=
  (r.processor.events.channel.filterMap request).foldl (fun l q => enqueue q l)
    (r.processor.events.pending.filterMap request)

theorem send_ok {r r' : Recorder S} {t : Int} {k : RecorderEventType S} (h : r.send t k = .ok r') :
    r.processor.events.channel.length < recorderEventCapacity ∧
    r' = { r with
      nextNumber := r.nextNumber + 1
      processor := { r.processor with
        events := { r.processor.events with
          channel := r.processor.events.channel ++ [⟨r.nextNumber, t, k⟩] } } } := by
  unfold send at h
  split at h
  · rename_i h1
    injection h with h
    exact ⟨h1, h.symm⟩
  · cases h

theorem send_queue {ch : Nat} {r r' : Recorder S} {t : Int} {k : RecorderEventType S}
    (h : r.send t k = .ok r') (hq : r.QueueOk ch)
    (hk : (⟨r.nextNumber, t, k⟩ : RecorderEvent S).Ok ch) :
    r'.QueueOk ch ∧ r'.waiting = (match (⟨r.nextNumber, t, k⟩ : RecorderEvent S).request with
      | none => r.waiting
      | some q => enqueue q r.waiting) := by
  obtain ⟨-, rfl⟩ := send_ok h
  refine ⟨⟨hq.sorted, ?_, ?_, ?_, ?_⟩, ?_⟩
  · simp only
    rw [List.pairwise_append]
    refine ⟨hq.channel, List.pairwise_singleton _ _, ?_⟩
    intro a ha b hb
    rw [List.mem_singleton] at hb
    subst hb
    exact hq.bound a (List.mem_append_right _ ha)
  · intro a ha b hb
    rcases List.mem_append.mp hb with hb | hb
    · exact hq.later a ha b hb
    · rw [List.mem_singleton] at hb
      subst hb
      exact hq.bound a (List.mem_append_left _ ha)
  · intro e he
    simp only at he ⊢
    rw [← List.append_assoc, List.mem_append] at he
    rcases he with he | he
    · have := hq.bound e he; omega
    · rw [List.mem_singleton] at he; subst he; exact Nat.lt_succ_self _
  · intro e he
    simp only at he
    rw [← List.append_assoc, List.mem_append] at he
    rcases he with he | he
    · exact hq.ok e he
    · rw [List.mem_singleton] at he; subst he; exact hk
  · unfold waiting
    simp only [List.filterMap_append, List.foldl_append]
    rw [List.filterMap_cons]
    cases (⟨r.nextNumber, t, k⟩ : RecorderEvent S).request <;> rfl

/-- The frames of the current recording. -/
def frames (ch : Nat) (r : Recorder S) : List (List S) :=
  match r.currentRecording with
  | none => []
  | some g => g.framesIn ch 0 g.frames

/-- The recording has the recorder's channels. -/
def RecordingOk (ch : Nat) (r : Recorder S) : Prop := ∀ g, r.currentRecording = some g → g.channels = ch

theorem append_spec [Zero S] {ch n : Nat} {r r' : Recorder S} {b : Grid S} (hb : b.OfRecorder ch)
    (hr : r.RecordingOk ch) (h : r.appendBuffer b n = .ok r') :
    ∃ g, r' = { r with currentRecording := some g } ∧ g.channels = ch ∧
      g.framesIn ch 0 g.frames = r.frames ch ++ b.framesIn ch 0 n := by
  unfold appendBuffer at h
  split at h
  · cases h
  · split at h
    · rename_i g hg
      split at h
      · cases h
      · rename_i hne
        have hgc := hr g hg
        obtain ⟨l1, h1, h2⟩ := bind_ok h
        obtain ⟨l2, h3, h4⟩ := bind_ok h2
        injection h4 with h4
        have hbc := hb.1
        rw [hgc] at h1
        rw [hbc] at h3
        obtain ⟨a1, a2, a3⟩ := Grid.copyFrom_frames h1
        obtain ⟨b1, b2, b3⟩ := Grid.copyFrom_frames h3
        refine ⟨l2, h4.symm, b1.trans a1, ?_⟩
        have e : l2.frames = g.frames + n := b2.trans a2
        rw [e, b3]
        unfold frames
        rw [hg]
        rw [Nat.zero_add] at a3
        rw [a3]
        rfl
    · rename_i hg
      obtain ⟨l1, h1, h2⟩ := bind_ok h
      injection h2 with h2
      have hbc := hb.1
      rw [hbc] at h1
      obtain ⟨a1, a2, a3⟩ := Grid.copyFrom_frames h1
      refine ⟨l1, h2.symm, a1, ?_⟩
      have e : l1.frames = n := a2
      rw [Nat.zero_add] at a3
      rw [e, a3]
      unfold frames
      rw [hg]
      rfl

/-- Receiving notifications. -/
theorem receive_spec [Zero S] {ch : Nat} : ∀ (ns : List (RecorderNotification S)) (r r' : Recorder S),
    (∀ n ∈ ns, n.Ok ch) → r.QueueOk ch → r.RecordingOk ch → ns.foldlM receive r = .ok r' →
    r'.QueueOk ch ∧ r'.RecordingOk ch ∧ r'.waiting = r.waiting ∧
      r'.frames ch = r.frames ch ++ ns.flatMap (RecorderNotification.frames ch) ∧
      r'.isRecording = ns.foldl RecorderNotification.flag r.isRecording ∧
      ∃ c, r'.processor = { r.processor with events := { r.processor.events with channel := c } } := by
  intro ns
  induction ns with
  | nil =>
    intro r r' _ hq hr h
    injection h with h
    subst h
    exact ⟨hq, hr, rfl, by simp, rfl, r.processor.events.channel, rfl⟩
  | cons n ns ih =>
    intro r r' hn hq hr h
    obtain ⟨r1, h1, h2⟩ := foldlM_cons_ok h
    have hno := hn n List.mem_cons_self
    have key : r1.QueueOk ch ∧ r1.RecordingOk ch ∧ r1.waiting = r.waiting ∧
        r1.frames ch = r.frames ch ++ RecorderNotification.frames ch n ∧
        r1.isRecording = RecorderNotification.flag r.isRecording n ∧
        ∃ c, r1.processor = { r.processor with events := { r.processor.events with channel := c } } := by
      unfold receive at h1
      cases n with
      | start =>
        injection h1 with h1
        subst h1
        exact ⟨⟨hq.sorted, hq.channel, hq.later, hq.bound, hq.ok⟩, hr, rfl,
          by simp [RecorderNotification.frames, frames], rfl, _, rfl⟩
      | stop =>
        injection h1 with h1
        subst h1
        exact ⟨⟨hq.sorted, hq.channel, hq.later, hq.bound, hq.ok⟩, hr, rfl,
          by simp [RecorderNotification.frames, frames], rfl, _, rfl⟩
      | data b k =>
        obtain ⟨r2, h3, h4⟩ := bind_ok h1
        obtain ⟨g, rfl, g1, g2⟩ := append_spec ⟨hno.1, hno.2.1⟩ hr h3
        have hq2 : ({ r with currentRecording := some g } : Recorder S).QueueOk ch :=
          ⟨hq.sorted, hq.channel, hq.later, hq.bound, hq.ok⟩
        obtain ⟨q1, q2⟩ := send_queue h4 hq2 ⟨rfl, hno.1, hno.2.1⟩
        obtain ⟨-, rfl⟩ := send_ok h4
        refine ⟨q1, ?_, q2, ?_, rfl, _, rfl⟩
        · intro x hx
          injection hx with hx
          subst hx
          exact g1
        · exact g2
    obtain ⟨k1, k2, k3, k4, k5, c, k6⟩ := key
    obtain ⟨i1, i2, i3, i4, i5, c', i6⟩ := ih r1 r' (fun x hx => hn x (List.mem_cons_of_mem _ hx)) k1 k2 h2
    refine ⟨i1, i2, i3.trans k3, ?_, ?_, c', ?_⟩
    · rw [i4, k4, List.append_assoc, List.flatMap_cons]
    · rw [i5, k5]; rfl
    · rw [i6, k6]

/-- A recorder that has recorded what it should. -/
structure Tracks (sr ch : Nat) (r : Recorder S) (taken : List (List S)) (q : Recorded S) : Prop where
  rate : r.processor.sampleRate = sr
  shape : r.processor.Shape ch
  queue : r.QueueOk ch
  recordingOk : r.RecordingOk ch
  recording : r.processor.recording = q.recording
  waiting : r.waiting = q.waiting
  frames : q.frames = taken ++ r.frames ch ++ r.processor.stream ch
  shown : r.processor.willShow r.isRecording = r.processor.recording

theorem new_tracks [Zero S] (sr ch first : Nat) : (new sr ch first : Recorder S).Tracks sr ch [] Recorded.none where
  rate := rfl
  shape := by
    refine ⟨⟨rfl, rfl⟩, by simp [new, RecorderProcessor.new, recorderBufferSize], ?_, by simp [new, RecorderProcessor.new]⟩
    intro b hb
    have := List.eq_of_mem_replicate hb
    subst this
    exact ⟨rfl, rfl⟩
  queue := by
    constructor <;> simp [new, RecorderProcessor.new, EventProcessor.withCapacity]
  recordingOk := by intro g hg; cases hg
  recording := rfl
  waiting := rfl
  frames := by simp [new, RecorderProcessor.new, Recorder.frames, RecorderProcessor.stream,
    Grid.framesIn_zero, Recorded.none]
  shown := rfl

theorem filterMap_filter_requests (es : List (RecorderEvent S)) (P : Int → Bool) :
    (es.filter (fun e => P e.time)).filterMap request =
      (es.filterMap request).filter (fun q => P q.time) := by
  have htime : ∀ {x : RecorderEvent S} {q}, x.request = some q → q.time = x.time := by
    intro x q hq
    unfold request at hq
    split at hq
    · injection hq with hq; subst hq; rfl
    · injection hq with hq; subst hq; rfl
    · cases hq
  induction es with
  | nil => rfl
  | cons e es ih =>
    rw [List.filter_cons, List.filterMap_cons]
    cases hq : e.request with
    | none =>
      split
      · rw [List.filterMap_cons, hq, ih]
      · rw [ih]
    | some q =>
      rw [List.filter_cons, htime hq]
      split
      · rw [List.filterMap_cons, hq, ih]
      · rw [ih]

theorem receive_pending (p : EventProcessor (RecorderEvent S)) (h1 : p.pending.Pairwise Before)
    (h2 : p.channel.Pairwise (fun a b => a.sequenceNumber < b.sequenceNumber))
    (h3 : ∀ a ∈ p.pending, ∀ b ∈ p.channel, a.sequenceNumber < b.sequenceNumber) :
    (receiveEvents p).pending = p.channel.foldl (fun l e => RecorderEvent.insert e l) p.pending ∧
    (receiveEvents p).channel = [] := by
  unfold receiveEvents
  split
  · rename_i h; rw [h]; exact ⟨rfl, rfl⟩
  · refine ⟨?_, rfl⟩
    rw [foldl_push _ (fun _ _ => rfl)]
    exact insertAll_sort h1 h2 h3

theorem audio_tracks [Zero S] {sr ch fuel : Nat} (hsr : 0 < sr) {r : Recorder S} {taken : List (List S)}
    {q : Recorded S} (ht : r.Tracks sr ch taken q) {input : Grid S} {start : Int}
    (ha : RecorderAction.Ok sr ch (.block input start)) {p' : RecorderProcessor S}
    (h : r.processor.processAudio fuel input start = .ok p') :
    ({ r with processor := p' } : Recorder S).Tracks sr ch taken (q.block sr ch input start) := by
  obtain ⟨h0, hn, hlen, hch⟩ := ha
  have hrate := ht.rate
  subst hrate
  obtain ⟨e1, e2⟩ := receive_pending r.processor.events ht.queue.sorted ht.queue.channel ht.queue.later
  obtain ⟨i1, i2, i3⟩ := insertAll r.processor.events.channel r.processor.events.pending ht.queue.sorted
    ht.queue.channel ht.queue.later
  rw [← e1] at i1 i2 i3
  unfold RecorderProcessor.processAudio at h
  simp only at h
  obtain ⟨⟨p, pending⟩, h1, h2⟩ := bind_ok h
  injection h2 with h2
  obtain ⟨ev, hev⟩ : ∃ ev, ev = receiveEvents r.processor.events := ⟨_, rfl⟩
  rw [← hev] at h1 h2 i1 i2 i3 e2
  have htm : ev.pending.Pairwise (fun a b => TimedEvent.time a ≤ TimedEvent.time b) :=
    i1.imp (by intro a b h; unfold Before at h; simp only [TimedEvent.time]; omega)
  rw [loop_play _ _ hsr start hlen ev.pending 0 start _ hn (Clock.start start _) htm
    (fun _ _ => Nat.zero_le _)] at h1
  obtain ⟨p1, h3, h4⟩ := bind_ok h1
  injection h4 with h4
  obtain ⟨h5, h6⟩ := Prod.mk.inj h4
  subst h5
  have hok : ∀ e ∈ ev.pending, e.Ok ch := fun e he => ht.queue.ok e (i2.mem_iff.mp he)
  have hsh : ({ r.processor with events := ev } : RecorderProcessor S).Shape ch :=
    ⟨ht.shape.current, ht.shape.position, ht.shape.pool, ht.shape.notifications⟩
  obtain ⟨s1, s2, s3, s4, s5, s6⟩ := RecorderProcessor.playEvents_spec h0 hch
    (ev.pending.filter (fun e => decide (TimedEvent.time e <
      Timestamp.incrementedBySamples start input.frames r.processor.sampleRate))) 0 start _ p1 hsh
    (fun e he => hok e (List.mem_filter.mp he).1) (Or.inl rfl) (Nat.zero_le _)
    (htm.filter _) (fun e he => by
      rw [List.mem_filter] at he
      have h7 : e.time < Timestamp.incrementedBySamples start input.frames r.processor.sampleRate := of_decide_eq_true he.2
      exact ⟨Nat.zero_le _, frameOf_lt hsr hn h7⟩) h3
  subst h2
  have hblockEnd : Timestamp.incrementedBySamples start input.frames r.processor.sampleRate =
      start + Timestamp.fromSamples (input.frames : ℚ) r.processor.sampleRate := rfl
  have hwait : ev.pending.filterMap request = q.waiting := by
    rw [i3]; exact ht.waiting
  have hdue : (ev.pending.filter (fun e => decide (TimedEvent.time e <
      Timestamp.incrementedBySamples start input.frames r.processor.sampleRate))).filterMap request =
      q.waiting.filter (fun x => decide (x.time < start + Timestamp.fromSamples (input.frames : ℚ) r.processor.sampleRate)) := by
    rw [← hwait]
    exact filterMap_filter_requests ev.pending
      (fun t => decide (t < start + Timestamp.fromSamples (input.frames : ℚ) r.processor.sampleRate))
  have hlate : pending = ev.pending.filter (fun e => !decide (TimedEvent.time e <
      Timestamp.incrementedBySamples start input.frames r.processor.sampleRate)) := h6.symm
  refine ⟨s5.trans ht.rate, ⟨s1.current, s1.position, s1.pool, s1.notifications⟩, ⟨?_, ?_, ?_, ?_, ?_⟩, ?_, ?_,
    ?_, ?_, ?_⟩
  · simp only; rw [hlate]; exact i1.filter _
  · simp only; rw [e2]; exact List.Pairwise.nil
  · simp only; rw [e2]; simp
  · simp only; rw [e2, List.append_nil, hlate]
    intro e he
    exact ht.queue.bound e (i2.mem_iff.mp (List.mem_filter.mp he).1)
  · simp only; rw [e2, List.append_nil, hlate]
    intro e he
    exact hok e (List.mem_filter.mp he).1
  · exact ht.recordingOk
  · simp only
    rw [s3]
    unfold RecorderProcessor.onAfter Recorded.block
    rw [hdue]
    simp only
    rw [ht.recording]
  · unfold Recorder.waiting
    simp only
    rw [e2, hlate]
    simp only [List.filterMap_nil, List.foldl_nil]
    have := filterMap_filter_requests ev.pending
      (fun t => !decide (t < start + Timestamp.fromSamples (input.frames : ℚ) r.processor.sampleRate))
    refine Eq.trans this ?_
    rw [hwait]
    unfold Recorded.block
    apply List.filter_congr
    intro x _
    by_cases hx : x.time < start + Timestamp.fromSamples (input.frames : ℚ) r.processor.sampleRate
    · have : ¬ start + Timestamp.fromSamples (input.frames : ℚ) r.processor.sampleRate ≤ x.time := by omega
      simp [hx, this]
    · have : start + Timestamp.fromSamples (input.frames : ℚ) r.processor.sampleRate ≤ x.time := by omega
      simp [hx, this]
  · have hst : ({ p1 with events := { ev with pending := pending } } : RecorderProcessor S).stream ch =
      p1.stream ch := rfl
    simp only
    rw [hst, s2]
    have hst0 : ({ r.processor with events := ev } : RecorderProcessor S).stream ch =
      r.processor.stream ch := rfl
    rw [hst0]
    unfold Recorded.block
    simp only
    rw [ht.frames]
    simp only [List.append_assoc]
    have hfr : ({ r with processor := { p1 with events := { ev with pending := pending } } } :
        Recorder S).frames ch = r.frames ch := rfl
    rw [hfr]
    refine congrArg (taken ++ ·) (congrArg (r.frames ch ++ ·) (congrArg (r.processor.stream ch ++ ·) ?_))
    unfold RecorderProcessor.keptFrom RecorderProcessor.requestsAt
    rw [hdue]
    rw [ht.recording, Nat.sub_zero, ← List.range_eq_range']
  · exact s6 r.isRecording ht.shown

/-- Every action keeps track. -/
theorem step_tracks [Zero S] {sr ch fuel : Nat} (hsr : 0 < sr) {r : Recorder S} {taken : List (List S)}
    {q : Recorded S} (ht : r.Tracks sr ch taken q) (a : RecorderAction S) (ha : a.Ok sr ch)
    {r' : Recorder S} {o : Option (Grid S)} (h : r.step fuel a = .ok (r', o)) :
    r'.Tracks sr ch (taken ++ o.toList.flatMap Grid.allFrames) (q.step sr ch a) := by
  have hsend : ∀ {t k r'} (x : Option (Grid S)), (r.send t k).map (·, none) = .ok (r', x) →
      (⟨r.nextNumber, t, k⟩ : RecorderEvent S).Ok ch → ∀ w,
      (⟨r.nextNumber, t, k⟩ : RecorderEvent S).request = some w →
      r'.Tracks sr ch (taken ++ x.toList.flatMap Grid.allFrames) { q with waiting := enqueue w q.waiting } := by
    intro t k r' x h hk w hw
    cases hs : r.send t k with
    | error e => rw [hs] at h; cases h
    | ok r1 =>
      rw [hs] at h
      cases h
      obtain ⟨q1, q2⟩ := send_queue hs ht.queue hk
      rw [hw] at q2
      obtain ⟨-, rfl⟩ := send_ok hs
      refine ⟨ht.rate, ⟨ht.shape.current, ht.shape.position, ht.shape.pool, ht.shape.notifications⟩, q1,
        ht.recordingOk, ht.recording, ?_, ?_, ht.shown⟩
      · rw [q2, ht.waiting]
      · simp only [Option.toList_none, List.flatMap_nil, List.append_nil]
        exact ht.frames
  cases a with
  | recordNow => exact hsend o h rfl _ rfl
  | stopNow => exact hsend o h trivial _ rfl
  | stopAt t => exact hsend o h trivial _ rfl
  | takeRecording =>
    unfold step at h
    cases h
    refine ⟨ht.rate, ht.shape, ⟨ht.queue.sorted, ht.queue.channel, ht.queue.later, ht.queue.bound,
      ht.queue.ok⟩, (fun g hg => by cases hg), ht.recording, ht.waiting, ?_, ht.shown⟩
    change q.frames = _
    rw [ht.frames]
    simp only [List.append_assoc]
    congr 1
    unfold frames
    simp only [List.nil_append]
    congr 1
    cases hc : r.currentRecording with
    | none => simp
    | some g =>
      simp only [Option.toList_some, List.flatMap_cons, List.flatMap_nil, List.append_nil]
      unfold Grid.allFrames
      rw [ht.recordingOk g hc]
  | notifications =>
    unfold step processNotifications at h
    cases hs : r.processor.notifications.foldlM receive
        { r with processor := { r.processor with notifications := [] } } with
    | error e => rw [hs] at h; cases h
    | ok r1 =>
      simp only at h
      rw [hs] at h
      cases h
      obtain ⟨i1, i2, i3, i4, i5, c, i6⟩ := receive_spec (ch := ch) r.processor.notifications
        { r with processor := { r.processor with notifications := [] } } r' ht.shape.notifications ⟨ht.queue.sorted, ht.queue.channel, ht.queue.later, ht.queue.bound,
      ht.queue.ok⟩ ht.recordingOk hs
      refine ⟨?_, ?_, i1, i2, ?_, ?_, ?_, ?_⟩
      · rw [i6]; exact ht.rate
      · rw [i6]
        exact ⟨ht.shape.current, ht.shape.position, ht.shape.pool, by simp⟩
      · rw [i6]; exact ht.recording
      · rw [i3]; exact ht.waiting
      · rw [i4]
        change q.frames = _
        rw [ht.frames, i6]
        simp only [Option.toList_none, List.flatMap_nil, List.append_nil, RecorderProcessor.stream,
          List.nil_append, List.append_assoc]
        rfl
      · rw [i6, i5]
        exact ht.shown
  | numbersDrawn n =>
    unfold step at h
    cases h
    refine ⟨ht.rate, ht.shape, ⟨ht.queue.sorted, ht.queue.channel, ht.queue.later, ?_, ht.queue.ok⟩,
      ht.recordingOk, ht.recording, ht.waiting, ?_, ht.shown⟩
    · intro e he
      have := ht.queue.bound e he
      simp only
      omega
    · simp only [Option.toList_none, List.flatMap_nil, List.append_nil]
      exact ht.frames
  | block input start =>
    unfold step at h
    cases hs : r.processor.processAudio fuel input start with
    | error e => simp only at h; rw [hs] at h; cases h
    | ok p1 =>
      simp only at h
      rw [hs] at h
      cases h
      simp only [Option.toList_none, List.flatMap_nil, List.append_nil]
      exact audio_tracks hsr ht ha hs

/-- Every history keeps track. -/
theorem run_tracks [Zero S] {sr ch fuel : Nat} (hsr : 0 < sr) (as : List (RecorderAction S)) :
    ∀ {r : Recorder S} {taken : List (List S)} {q : Recorded S}, r.Tracks sr ch taken q →
    (∀ a ∈ as, a.Ok sr ch) → ∀ {r' : Recorder S} {out : List (Grid S)}, r.run fuel as = .ok (r', out) →
    r'.Tracks sr ch (taken ++ out.flatMap Grid.allFrames) (q.run sr ch as) := by
  induction as with
  | nil =>
    intro r taken q ht _ r' out h
    cases h
    simpa [Recorded.run] using ht
  | cons a as ih =>
    intro r taken q ht ha r' out h
    unfold run at h
    obtain ⟨⟨r1, o⟩, h1, h2⟩ := bind_ok h
    obtain ⟨⟨r2, rest⟩, h3, h4⟩ := bind_ok h2
    cases h4
    have t1 := step_tracks hsr ht a (ha a List.mem_cons_self) h1
    have t2 := ih t1 (fun x hx => ha x (List.mem_cons_of_mem _ hx)) h3
    rw [List.flatMap_append, ← List.append_assoc]
    exact t2

end Recorder
end Rawdio
