import Verif.Lemmas.RecorderRun

/-! # When the recorder keeps up, and when it stalls -/

namespace Rawdio

variable {S : Type}

open EventProcessor RecorderEvent

theorem Grid.copyFrom_ok (dst src : Grid S) (sf df ch n : Nat) (h1 : ch ≤ src.channels)
    (h2 : sf + n ≤ src.frames) (h3 : ch ≤ dst.channels) (h4 : df + n ≤ dst.frames) :
    ∃ d, dst.copyFrom src sf df ch n = .ok d := by
  unfold Grid.copyFrom
  by_cases h0 : ch = 0
  · exact ⟨_, by rw [if_pos h0]⟩
  · rw [if_neg h0, if_pos ⟨h1, h2, h3, h4⟩]
    exact ⟨_, rfl⟩

namespace RecorderProcessor

theorem nextBuffer_works {p : RecorderProcessor S} (h1 : p.notifications.length < recorderNotificationCapacity)
    (h2 : 0 < p.pool.length) :
    ∃ p', p.nextBuffer = .ok p' ∧ p'.notifications.length = p.notifications.length + 1 ∧
      p'.sent = p.sent + 1 ∧ p'.pool.length + 1 = p.pool.length ∧ p'.position = 0 := by
  unfold nextBuffer
  cases hl : p.pool.getLast? with
  | none => rw [List.getLast?_eq_none_iff] at hl; rw [hl] at h2; simp at h2
  | some next =>
    simp only [notify, if_pos h1]
    refine ⟨_, rfl, by simp, by simp [sent, RecorderNotification.isData], ?_, rfl⟩
    simp only [List.length_dropLast]
    omega

/-- Copying the frames of a block succeeds when there is room for the buffers that get full. -/
theorem copyLoop_works {ch : Nat} (input : Grid S) (n : Nat) (hch : ch ≤ input.channels)
    (hn : n ≤ input.frames) :
    ∀ (fuel position : Nat) (p : RecorderProcessor S), p.Shape ch → position ≤ n → n - position ≤ fuel →
    p.notifications.length + (p.position + (n - position)) / 4096 ≤ 32 →
    (p.position + (n - position)) / 4096 ≤ p.pool.length →
    ∃ p', copyLoop input 0 n ch fuel position p = .ok p' ∧
      p'.notifications.length = p.notifications.length + (p.position + (n - position)) / 4096 ∧
      p'.sent = p.sent + (p.position + (n - position)) / 4096 ∧
      p'.pool.length + (p.position + (n - position)) / 4096 = p.pool.length ∧
      p'.position = (p.position + (n - position)) % 4096 := by
  intro fuel
  induction fuel with
  | zero =>
    intro position p hs hp hf h1 h2
    have e : n - position = 0 := by omega
    have hpos := hs.position
    simp only [recorderBufferSize] at hpos
    simp only [e, Nat.add_zero, Nat.div_eq_of_lt hpos, Nat.mod_eq_of_lt hpos]
    refine ⟨p, ?_, rfl, rfl, rfl, rfl⟩
    unfold copyLoop
    rw [if_neg (by omega)]
  | succ fuel ih =>
    intro position p hs hp hf h1 h2
    have hpos := hs.position
    have hcf := hs.current.2
    simp only [recorderBufferSize] at hpos hcf
    by_cases hlt : position < n
    · unfold copyLoop
      rw [if_pos (by omega), if_neg (by omega)]
      obtain ⟨k, hk⟩ : ∃ k, k = min (n - position) (p.current.frames - p.position) := ⟨_, rfl⟩
      obtain ⟨d, hd⟩ := p.current.copyFrom_ok input position p.position ch k hch (by omega)
        hs.current.1.ge (by omega)
      obtain ⟨c1, c2, -⟩ := Grid.copyFrom_frames hd
      simp only
      rw [← hk, ok_bind hd]
      have hcur : d.OfRecorder ch := ⟨c1.trans hs.current.1, c2.trans hs.current.2⟩
      unfold nextIfFull
      simp only
      by_cases hfull : d.frames ≤ p.position + k
      · rw [if_pos hfull]
        rw [c2, hcf] at hfull
        have hk2 : k = 4096 - p.position := by omega
        obtain ⟨q, e1, e2, e3, e4, e5⟩ := nextBuffer_works
          (p := { p with current := d, position := p.position + k })
          (by simp only [recorderNotificationCapacity]; omega) (by simp only; omega)
        have hq := (nextBuffer_spec (ch := ch) e1 hcur (by simp only [recorderBufferSize]; omega) hs.pool
          hs.notifications).1
        rw [ok_bind e1]
        simp only at e2 e4
        have e3' : q.sent = p.sent + 1 := e3
        obtain ⟨p', i1, i2, i3, i4, i5⟩ := ih (position + k) q hq (by omega) (by omega)
          (by rw [e2, e5]; omega) (by rw [e5]; omega)
        rw [e5] at i2 i3 i4 i5
        exact ⟨p', i1, by omega, by omega, by omega, by omega⟩
      · rw [if_neg hfull]
        rw [c2, hcf] at hfull
        have hk2 : k = n - position := by omega
        obtain ⟨p', i1, i2, i3, i4, i5⟩ := ih (position + k)
          { p with current := d, position := p.position + k }
          ⟨hcur, by simp only [recorderBufferSize]; omega, hs.pool, hs.notifications⟩ (by omega) (by omega)
          (by simp only; omega) (by simp only; omega)
        simp only at i2 i4 i5
        have i3' : p'.sent = p.sent + (p.position + k + (n - (position + k))) / 4096 := i3
        exact ⟨p', i1, by omega, by omega, by omega, by omega⟩
    · have e : n - position = 0 := by omega
      simp only [e, Nat.add_zero, Nat.div_eq_of_lt hpos, Nat.mod_eq_of_lt hpos]
      refine ⟨p, ?_, rfl, rfl, rfl, rfl⟩
      unfold copyLoop
      rw [if_neg (by omega)]

/-- Copying waits when there is no room for a notification. -/
theorem copyLoop_waits {ch : Nat} (input : Grid S) (n : Nat) (hch : ch ≤ input.channels)
    (hn : n ≤ input.frames) :
    ∀ (fuel position : Nat) (p : RecorderProcessor S), p.Shape ch → position ≤ n → n - position ≤ fuel →
    p.notifications.length ≤ 32 →
    32 < p.notifications.length + (p.position + (n - position)) / 4096 →
    33 ≤ p.pool.length + p.notifications.length →
    copyLoop input 0 n ch fuel position p = .error .block := by
  intro fuel
  induction fuel with
  | zero =>
    intro position p hs hp hf h0 h1 h2
    have hpos := hs.position
    simp only [recorderBufferSize] at hpos
    omega
  | succ fuel ih =>
    intro position p hs hp hf h0 h1 h2
    have hpos := hs.position
    have hcf := hs.current.2
    simp only [recorderBufferSize] at hpos hcf
    have hlt : position < n := by omega
    unfold copyLoop
    rw [if_pos (by omega), if_neg (by omega)]
    obtain ⟨k, hk⟩ : ∃ k, k = min (n - position) (p.current.frames - p.position) := ⟨_, rfl⟩
    obtain ⟨d, hd⟩ := p.current.copyFrom_ok input position p.position ch k hch (by omega)
      hs.current.1.ge (by omega)
    obtain ⟨c1, c2, -⟩ := Grid.copyFrom_frames hd
    simp only
    rw [← hk, ok_bind hd]
    have hcur : d.OfRecorder ch := ⟨c1.trans hs.current.1, c2.trans hs.current.2⟩
    have hk2 : k = 4096 - p.position := by omega
    have hfull : d.frames ≤ p.position + k := by omega
    unfold nextIfFull
    simp only
    rw [if_pos hfull]
    by_cases hroom : p.notifications.length < 32
    · obtain ⟨q, e1, e2, e3, e4, e5⟩ := nextBuffer_works
        (p := { p with current := d, position := p.position + k })
        (by simp only [recorderNotificationCapacity]; omega) (by simp only; omega)
      have hq := (nextBuffer_spec (ch := ch) e1 hcur (by simp only [recorderBufferSize]; omega) hs.pool
        hs.notifications).1
      rw [ok_bind e1]
      simp only at e2 e4
      exact ih (position + k) q hq (by omega) (by omega) (by omega) (by rw [e2, e5]; omega) (by omega)
    · unfold nextBuffer
      simp only
      cases hl : p.pool.getLast? with
      | none => rw [List.getLast?_eq_none_iff] at hl; rw [hl] at h2; simp at h2; omega
      | some next =>
        simp only [notify]
        rw [if_neg (by simp only [recorderNotificationCapacity]; omega)]
        rfl

/-- Starts among events. -/
def isStart (e : RecorderEvent S) : Bool := match e.eventType with
  | .start => true
  | _ => false

/-- Returned buffers among events. -/
def isReturn (e : RecorderEvent S) : Bool := match e.eventType with
  | .returnBuffer _ => true
  | _ => false

/-- 1 while recording. -/
def on (p : RecorderProcessor S) : Nat := if p.recording then 1 else 0

theorem process_works {ch fuel n : Nat} {input : Grid S} {p : RecorderProcessor S} {position k : Nat}
    (hs : p.Shape ch) (hch : ch ≤ input.channels) (hpos : position = 0 ∨ p.recording = false)
    (hk : position + k ≤ n) (hn : n ≤ input.frames) (hf : n ≤ fuel)
    (h1 : p.notifications.length + (p.position + k) / 4096 ≤ 32) (h2 : (p.position + k) / 4096 ≤ p.pool.length) :
    ∃ p', process fuel input p position k = .ok p' ∧
      p'.notifications.length + (p'.position + (n - (position + k))) / 4096 ≤
        p.notifications.length + (p.position + (n - position)) / 4096 ∧
      p'.sent + (p'.position + (n - (position + k))) / 4096 ≤ p.sent + (p.position + (n - position)) / 4096 ∧
      p'.pool.length + p'.sent = p.pool.length + p.sent := by
  unfold process
  cases hr : p.recording with
  | false =>
    refine ⟨p, rfl, ?_, ?_, rfl⟩
    · have : (p.position + (n - (position + k))) / 4096 ≤ (p.position + (n - position)) / 4096 :=
        Nat.div_le_div_right (by omega)
      omega
    · have : (p.position + (n - (position + k))) / 4096 ≤ (p.position + (n - position)) / 4096 :=
        Nat.div_le_div_right (by omega)
      omega
  | true =>
    have h0 : position = 0 := by rw [hr] at hpos; simpa using hpos
    subst h0
    rw [hs.current.1, Nat.min_eq_right hch]
    obtain ⟨p', i1, i2, i3, i4, i5⟩ := copyLoop_works input k hch (by omega) fuel 0 p hs (Nat.zero_le _)
      (by omega) (by simpa using h1) (by simpa using h2)
    simp only [Nat.sub_zero] at i2 i3 i4 i5
    refine ⟨p', i1, ?_, ?_, by omega⟩
    · rw [i2, i5]; omega
    · rw [i3, i5]; omega

theorem processEvent_works [Zero S] {p : RecorderProcessor S} {e : RecorderEvent S} {t : Int}
    (h1 : p.notifications.length + 3 * (if isStart e then 1 else 0) + 2 * p.on ≤ 32)
    (h2 : (if isStart e then 1 else 0) + p.on ≤ p.pool.length) :
    ∃ p', p.processEvent e t = .ok p' ∧ p'.position ≤ p.position ∧
      p'.notifications.length + 2 * p'.on ≤
        p.notifications.length + 3 * (if isStart e then 1 else 0) + 2 * p.on ∧
      p'.sent + p'.on ≤ p.sent + (if isStart e then 1 else 0) + p.on ∧
      p'.pool.length + p'.sent = p.pool.length + p.sent + (if isReturn e then 1 else 0) := by
  unfold processEvent
  unfold isStart at h1 h2
  unfold isStart isReturn
  cases hE : e.eventType with
  | start =>
    rw [hE] at h1 h2
    simp only [if_true] at h1 h2
    simp only [if_true]
    unfold start
    cases hr : p.recording with
    | true => exact ⟨p, rfl, le_refl _, by omega, by omega, by simp⟩
    | false =>
      simp only [Bool.false_eq_true, if_false, notify]
      rw [if_pos (by simp only [recorderNotificationCapacity]; omega)]
      refine ⟨_, rfl, le_refl _, ?_, ?_, ?_⟩
      · simp [on, hr]
      · simp [on, hr, sent, RecorderNotification.isData]
      · simp [sent, RecorderNotification.isData]
  | stop =>
    rw [hE] at h1 h2
    simp only [Bool.false_eq_true, if_false] at h1 h2
    simp only [Bool.false_eq_true, if_false]
    unfold stop
    cases hr : p.recording with
    | false => exact ⟨p, rfl, le_refl _, by omega, by omega, by simp⟩
    | true =>
      have hon : p.on = 1 := by simp [on, hr]
      obtain ⟨q, e1, e2, e3, e4, e5⟩ := nextBuffer_works (p := p)
        (by simp only [recorderNotificationCapacity]; omega) (by omega)
      rw [if_pos rfl, ok_bind e1]
      simp only [notify]
      rw [if_pos (by simp only [recorderNotificationCapacity]; omega)]
      refine ⟨_, rfl, by simp [e5], ?_, ?_, ?_⟩
      · simp only [on, List.length_append, List.length_singleton]
        simp [hr]
        omega
      · have : ({ q with recording := false, notifications := q.notifications ++ [.stop] } :
            RecorderProcessor S).sent = q.sent := by simp [sent, RecorderNotification.isData]
        rw [this, hon, e3]
        simp [on]
      · have : ({ q with recording := false, notifications := q.notifications ++ [.stop] } :
            RecorderProcessor S).sent = q.sent := by simp [sent, RecorderNotification.isData]
        rw [this]
        simp only
        omega
  | returnBuffer b =>
    rw [hE] at h1 h2
    simp only [Bool.false_eq_true, if_false] at h1 h2
    simp only [Bool.false_eq_true, if_false, if_true]
    refine ⟨_, rfl, le_refl _, ?_, ?_, ?_⟩
    · change p.notifications.length + 2 * p.on ≤ _
      omega
    · change p.sent + p.on ≤ _
      omega
    · simp only [returnBuffer, sent, List.length_append, List.length_singleton]
      omega

theorem playEvents_works [Zero S] {ch fuel sr n : Nat} {input : Grid S} {start : Int} (h0 : 0 ≤ start)
    (hch : ch ≤ input.channels) (hn : n ≤ input.frames) (hf : n ≤ fuel) :
    ∀ (es : List (RecorderEvent S)) (position : Nat) (cur : Int) (p : RecorderProcessor S),
    p.Shape ch → (∀ e ∈ es, e.Ok ch) → (position = 0 ∨ p.recording = false) → position ≤ n →
    es.Pairwise (fun a b => a.time ≤ b.time) →
    (∀ e ∈ es, position ≤ frameOf start e.time sr ∧ frameOf start e.time sr < n) →
    p.notifications.length + 3 * es.countP isStart + 2 * p.on + (p.position + (n - position)) / 4096 ≤ 32 →
    es.countP isStart + p.on + (p.position + (n - position)) / 4096 ≤ p.pool.length →
    ∃ p', playEvents (process fuel input) processEvent sr start n es position cur p = .ok p' ∧
      p'.sent ≤ p.sent + es.countP isStart + p.on + (p.position + (n - position)) / 4096 ∧
      p'.pool.length + p'.sent = p.pool.length + p.sent + es.countP isReturn := by
  intro es
  induction es with
  | nil =>
    intro position cur p hs he hpos hpn hsort hb h1 h2
    simp only [List.countP_nil] at h1 h2
    obtain ⟨p', e1, e2, e3, e4⟩ := process_works (fuel := fuel) (n := n) (k := n - position) hs hch hpos (by omega) hn hf
      (by omega) (by omega)
    refine ⟨p', e1, ?_, ?_⟩
    · simp only [List.countP_nil]
      omega
    · simpa using e4
  | cons e es ih =>
    intro position cur p hs he hpos hpn hsort hb h1 h2
    obtain ⟨hs1, hs2⟩ := List.pairwise_cons.mp hsort
    obtain ⟨b1, b2⟩ := hb e List.mem_cons_self
    have heo := he e List.mem_cons_self
    obtain ⟨k, hk⟩ : ∃ k, k = frameOf start e.time sr - position := ⟨_, rfl⟩
    have hkf : position + k = frameOf start e.time sr := by omega
    have hdiv : (p.position + k) / 4096 ≤ (p.position + (n - position)) / 4096 :=
      Nat.div_le_div_right (by omega)
    rw [List.countP_cons] at h1 h2
    obtain ⟨q, a1, a2, a3, a4⟩ := process_works (fuel := fuel) (n := n) (k := k) hs hch hpos (by omega) hn hf
      (by omega) (by omega)
    obtain ⟨s1, s2, s3, s4, s5, s6⟩ := process_spec hs hch hpos a1
    have hon : q.on = p.on := by simp [on, s3]
    obtain ⟨r, c1, c2, c3, c4, c5⟩ := processEvent_works (p := q) (e := e)
      (t := cur + Timestamp.fromSamples (k : ℚ) sr) (by omega) (by omega)
    obtain ⟨t1, t2, t3, t4, t5, t6⟩ := processEvent_spec s1 heo c1
    have hpos' : frameOf start e.time sr = 0 ∨ r.recording = false := by
      unfold RecorderEvent.Ok at heo
      unfold RecorderEvent.request at t3
      cases hE : e.eventType with
      | start => rw [hE] at heo; left; rw [heo]; exact frameOf_zero h0 sr
      | stop => rw [hE] at t3; right; exact t3
      | returnBuffer b => rw [hE] at heo; left; rw [heo.1]; exact frameOf_zero h0 sr
    have hdiv2 : (r.position + (n - (position + k))) / 4096 ≤ (q.position + (n - (position + k))) / 4096 :=
      Nat.div_le_div_right (by omega)
    rw [hkf] at hdiv2 a2 a3
    obtain ⟨p', d1, d2, d3⟩ := ih (frameOf start e.time sr) (cur + Timestamp.fromSamples (k : ℚ) sr) r t1
      (fun x hx => he x (List.mem_cons_of_mem _ hx)) hpos' b2.le hs2
      (fun x hx => ⟨EventProcessor.frameOf_mono sr (hs1 x hx), (hb x (List.mem_cons_of_mem _ hx)).2⟩)
      (by omega) (by omega)
    refine ⟨p', ?_, ?_, ?_⟩
    · simp only [playEvents]
      change Except.bind (process fuel input p position (frameOf start e.time sr - position)) _ = _
      rw [← hk, a1]
      simp only [Except.bind]
      change Except.bind (processEvent q e (cur + Timestamp.fromSamples
        ((frameOf start e.time sr - position : Nat) : ℚ) sr)) _ = _
      rw [← hk, c1]
      simp only [Except.bind]
      rw [hk] at d1
      exact d1
    · rw [List.countP_cons]
      omega
    · rw [List.countP_cons]
      omega

end RecorderProcessor

namespace Recorder

open RecorderProcessor

theorem append_works [Zero S] {ch n : Nat} {r : Recorder S} {b : Grid S} (hb : b.OfRecorder ch)
    (hn : n ≤ recorderBufferSize) (hr : r.RecordingOk ch) : ∃ r', r.appendBuffer b n = .ok r' := by
  unfold appendBuffer
  have hbf := hb.2
  rw [if_neg (by omega)]
  split
  · rename_i g hg
    have hgc := hr g hg
    rw [if_neg (by rw [hb.1, hgc]; simp)]
    obtain ⟨l1, h1⟩ := (Grid.zeros (g.frames + n) g.channels : Grid S).copyFrom_ok g 0 0 g.channels g.frames
      (le_refl _) (by omega) (le_refl _) (by simp [Grid.zeros])
    obtain ⟨a1, a2, -⟩ := Grid.copyFrom_frames h1
    obtain ⟨l2, h2⟩ := l1.copyFrom_ok b 0 g.frames b.channels n (le_refl _) (by omega)
      (by rw [a1, hb.1]; simp [Grid.zeros, hgc]) (by rw [a2]; simp [Grid.zeros])
    rw [ok_bind h1, ok_bind h2]
    exact ⟨_, rfl⟩
  · obtain ⟨l1, h1⟩ := (Grid.zeros n b.channels : Grid S).copyFrom_ok b 0 0 b.channels n
      (le_refl _) (by omega) (le_refl _) (by simp [Grid.zeros])
    rw [ok_bind h1]
    exact ⟨_, rfl⟩

theorem send_works {r : Recorder S} (t : Int) (k : RecorderEventType S)
    (h : r.processor.events.channel.length < 32) : ∃ r', r.send t k = .ok r' := by
  have h' : r.processor.events.channel.length < recorderEventCapacity := h
  unfold send
  rw [if_pos h']
  exact ⟨_, rfl⟩

/-- Receiving notifications succeeds when there is room to return the buffers. -/
theorem receive_works [Zero S] {ch : Nat} : ∀ (ns : List (RecorderNotification S)) (r : Recorder S),
    (∀ n ∈ ns, n.Ok ch) → r.RecordingOk ch →
    r.processor.events.channel.length + ns.countP RecorderNotification.isData ≤ 32 →
    ∃ r', ns.foldlM receive r = .ok r' ∧ ∃ c : List (RecorderEvent S),
      r'.processor = { r.processor with
        events := { r.processor.events with channel := r.processor.events.channel ++ c } } ∧
      c.length = ns.countP RecorderNotification.isData ∧ ∀ e ∈ c, isReturn e = true := by
  intro ns
  induction ns with
  | nil => intro r _ _ _; exact ⟨r, rfl, [], by simp, rfl, by simp⟩
  | cons n ns ih =>
    intro r hn hr hroom
    have hno := hn n List.mem_cons_self
    have hrest : ∀ m ∈ ns, m.Ok ch := fun x hx => hn x (List.mem_cons_of_mem _ hx)
    rw [List.countP_cons] at hroom
    cases n with
    | start =>
      obtain ⟨r', h1, c, h2, h3, h4⟩ := ih { r with isRecording := true } hrest hr
        (by simpa [RecorderNotification.isData] using hroom)
      exact ⟨r', h1, c, h2, by rw [h3, List.countP_cons]; rfl, h4⟩
    | stop =>
      obtain ⟨r', h1, c, h2, h3, h4⟩ := ih { r with isRecording := false } hrest hr
        (by simpa [RecorderNotification.isData] using hroom)
      exact ⟨r', h1, c, h2, by rw [h3, List.countP_cons]; rfl, h4⟩
    | data b k =>
      simp only [RecorderNotification.isData, if_true] at hroom
      obtain ⟨r1, a1⟩ := append_works (r := r) ⟨hno.1, hno.2.1⟩ hno.2.2 hr
      obtain ⟨g, e, g1, -⟩ := append_spec ⟨hno.1, hno.2.1⟩ hr a1
      obtain ⟨r2, b1⟩ := send_works (r := r1) Timestamp.zero (.returnBuffer b) (by rw [e]; simp only; omega)
      obtain ⟨-, e2⟩ := send_ok b1
      rw [e] at e2
      obtain ⟨r', h1, c, h2, h3, h4⟩ := ih r2 hrest (by
          intro x hx
          rw [e2] at hx
          injection hx with hx
          subst hx
          exact g1)
        (by rw [e2]; simp only [List.length_append, List.length_singleton]; omega)
      refine ⟨r', ?_, ⟨r.nextNumber, Timestamp.zero, .returnBuffer b⟩ :: c, ?_, ?_, ?_⟩
      · rw [List.foldlM_cons]
        have : receive r (.data b k) = .ok r2 := by
          unfold receive
          simp only
          rw [ok_bind a1]
          exact b1
        exact (ok_bind this).trans h1
      · rw [h2, e2]
        simp
      · rw [List.countP_cons, List.length_cons, h3]
        rfl
      · intro x hx
        rcases List.mem_cons.mp hx with rfl | hx
        · rfl
        · exact h4 x hx

/-- A recorder between two rounds of requests, block and notifications. -/
structure Rested (r : Recorder S) : Prop where
  empty : r.processor.notifications = []
  pool : r.processor.pool.length + r.processor.events.channel.length = 32
  channel : r.processor.events.channel.length ≤ 10
  returns : ∀ e ∈ r.processor.events.channel, isReturn e = true
  pending : ∀ e ∈ r.processor.events.pending, isReturn e = false ∧ isStart e = false

/-- During the requests of a round. -/
structure Asked (r : Recorder S) (k : Nat) : Prop where
  empty : r.processor.notifications = []
  pool : r.processor.pool.length + r.processor.events.channel.countP isReturn = 32
  channel : r.processor.events.channel.length ≤ 10 + k
  returns : r.processor.events.channel.countP isReturn ≤ 10
  starts : r.processor.events.channel.countP isStart ≤ k
  pending : ∀ e ∈ r.processor.events.pending, isReturn e = false ∧ isStart e = false

theorem Rested.asked {r : Recorder S} (h : r.Rested) : r.Asked 0 where
  empty := h.empty
  pool := by rw [List.countP_eq_length.mpr h.returns]; exact h.pool
  channel := h.channel
  returns := le_trans List.countP_le_length h.channel
  starts := by
    rw [Nat.le_zero, List.countP_eq_zero]
    intro e he
    have := h.returns e he
    unfold isReturn at this
    unfold isStart
    cases hE : e.eventType <;> rw [hE] at this <;> simp_all
  pending := h.pending

theorem Asked.step [Zero S] {r : Recorder S} {k fuel : Nat} (h : r.Asked k) (hk : k < 8)
    (a : RecorderAction S) (ha : a.IsRequest) : ∃ r' o, r.step fuel a = .ok (r', o) ∧ r'.Asked (k + 1) := by
  have hsend : ∀ t (e : RecorderEventType S), (∀ b, e ≠ .returnBuffer b) →
      ∃ r' o, (r.send t e).map (·, (none : Option (Grid S))) = .ok (r', o) ∧ r'.Asked (k + 1) := by
    intro t e hne
    have hc := h.channel
    obtain ⟨r', h1⟩ := send_works (r := r) t e (by omega)
    refine ⟨r', none, by rw [h1]; rfl, ?_⟩
    obtain ⟨-, rfl⟩ := send_ok h1
    have hret : isReturn (⟨r.nextNumber, t, e⟩ : RecorderEvent S) = false := by
      unfold isReturn
      cases e with
      | returnBuffer b => exact absurd rfl (hne b)
      | start => rfl
      | stop => rfl
    refine ⟨h.empty, ?_, ?_, ?_, ?_, h.pending⟩
    · simp only [List.countP_append, List.countP_cons, hret, List.countP_nil]
      simpa using h.pool
    · simp only [List.length_append, List.length_singleton]; omega
    · simp only [List.countP_append, List.countP_cons, hret, List.countP_nil]
      simpa using h.returns
    · simp only [List.countP_append, List.countP_cons, List.countP_nil]
      have := h.starts
      split <;> omega
  have hsame : r.Asked (k + 1) := ⟨h.empty, h.pool, by have := h.channel; omega, h.returns,
    by have := h.starts; omega, h.pending⟩
  cases a with
  | recordNow => exact hsend _ _ (by simp)
  | stopNow => exact hsend _ _ (by simp)
  | stopAt t => exact hsend _ _ (by simp)
  | takeRecording =>
    exact ⟨_, _, rfl, hsame.empty, hsame.pool, hsame.channel, hsame.returns, hsame.starts, hsame.pending⟩
  | numbersDrawn n =>
    exact ⟨_, _, rfl, hsame.empty, hsame.pool, hsame.channel, hsame.returns, hsame.starts, hsame.pending⟩
  | notifications => exact absurd ha id
  | block i s => exact absurd ha id

theorem fromSamples_pos {n sr : Nat} (hsr : 0 < sr) (h32 : sr ≤ 2 ^ 32) (hn : 0 < n) :
    0 < Timestamp.fromSamples (n : ℚ) sr := by
  have h := Timestamp.fromSamples_error (n : ℚ) sr
  rw [abs_le] at h
  have h1 : (1 : ℚ) ≤ (n : ℚ) / sr * Timestamp.one := by
    have a1 : (1 : ℚ) ≤ n := by exact_mod_cast hn
    have a2 : (sr : ℚ) ≤ 2 ^ 32 := by exact_mod_cast h32
    have a3 : (0 : ℚ) < sr := by exact_mod_cast hsr
    unfold Timestamp.one
    rw [div_mul_eq_mul_div, le_div_iff₀ a3]
    push_cast
    nlinarith
  have h2 : (0 : ℚ) < (Timestamp.fromSamples (n : ℚ) sr : ℚ) := by linarith [h.1]
  exact_mod_cast h2

/-- The block and the notifications of a round. -/
theorem Asked.block [Zero S] {sr ch fuel : Nat} (hsr : 0 < sr) (h32 : sr ≤ 2 ^ 32) {r : Recorder S}
    {k : Nat} (h : r.Asked k) (hk : k ≤ 8) {taken : List (List S)} {q : Recorded S}
    (ht : r.Tracks sr ch taken q) (input : Grid S) (start : Int)
    (ha : RecorderAction.Ok sr ch (.block input start)) (hn : input.frames ≤ 4096) (hf : 4096 ≤ fuel) :
    ∃ p', r.processor.processAudio fuel input start = .ok p' ∧
      p'.sent ≤ 10 ∧ p'.pool.length + p'.sent = 32 ∧ p'.events.channel = [] ∧
      ∀ e ∈ p'.events.pending, isReturn e = false ∧ isStart e = false := by
  obtain ⟨h0, hn0, hlen, hch⟩ := ha
  have hrate := ht.rate
  subst hrate
  obtain ⟨e1, e2⟩ := receive_pending r.processor.events ht.queue.sorted ht.queue.channel ht.queue.later
  obtain ⟨i1, i2, i3⟩ := insertAll r.processor.events.channel r.processor.events.pending ht.queue.sorted
    ht.queue.channel ht.queue.later
  rw [← e1] at i1 i2 i3
  obtain ⟨ev, hev⟩ : ∃ ev, ev = receiveEvents r.processor.events := ⟨_, rfl⟩
  rw [← hev] at i1 i2 i3 e2
  have htm : ev.pending.Pairwise (fun a b => TimedEvent.time a ≤ TimedEvent.time b) :=
    i1.imp (by intro a b h; unfold Before at h; simp only [TimedEvent.time]; omega)
  have hok : ∀ e ∈ ev.pending, e.Ok ch := fun e he => ht.queue.ok e (i2.mem_iff.mp he)
  have hsh : ({ r.processor with events := ev } : RecorderProcessor S).Shape ch :=
    ⟨ht.shape.current, ht.shape.position, ht.shape.pool, ht.shape.notifications⟩
  have hend : 0 < Timestamp.incrementedBySamples start input.frames r.processor.sampleRate := by
    have := fromSamples_pos hsr h32 hn0
    unfold Timestamp.incrementedBySamples
    omega
  obtain ⟨due, hdue⟩ : ∃ due, due = ev.pending.filter (fun e => decide (TimedEvent.time e <
      Timestamp.incrementedBySamples start input.frames r.processor.sampleRate)) := ⟨_, rfl⟩
  have hp0 : r.processor.events.pending.countP isStart = 0 := by
    rw [List.countP_eq_zero]; intro e he; rw [(h.pending e he).2]; simp
  have hp1 : r.processor.events.pending.countP isReturn = 0 := by
    rw [List.countP_eq_zero]; intro e he; rw [(h.pending e he).1]; simp
  have hst : due.countP isStart ≤ 8 := by
    have a1 : due.countP isStart ≤ ev.pending.countP isStart := by
      rw [hdue]; exact List.filter_sublist.countP_le
    have a2 := i2.countP_eq isStart
    rw [List.countP_append, hp0] at a2
    have := h.starts
    omega
  have hnow : ∀ e ∈ ev.pending, (isReturn e = true ∨ isStart e = true) → e ∈ due := by
    intro e he hor
    rw [hdue, List.mem_filter]
    refine ⟨he, ?_⟩
    have h5 := hok e he
    unfold RecorderEvent.Ok at h5
    unfold isReturn isStart at hor
    have h6 : e.time = 0 := by
      cases hE : e.eventType with
      | start => rw [hE] at h5; exact h5
      | stop => rw [hE] at hor; simp at hor
      | returnBuffer b => rw [hE] at h5; exact h5.1
    apply decide_eq_true
    change e.time < _
    rw [h6]
    exact hend
  have hret : due.countP isReturn = r.processor.events.channel.countP isReturn := by
    have a2 := i2.countP_eq isReturn
    rw [List.countP_append, hp1, Nat.zero_add] at a2
    rw [← a2, hdue, List.countP_filter]
    apply List.countP_congr
    intro e he
    rw [Bool.and_eq_true]
    constructor
    · exact fun h => h.1
    · intro hr
      refine ⟨hr, ?_⟩
      have := hnow e he (Or.inl hr)
      rw [hdue, List.mem_filter] at this
      exact this.2
  have hpool := h.pool
  have hretle := h.returns
  have hon : ({ r.processor with events := ev } : RecorderProcessor S).on ≤ 1 := by
    unfold on; split <;> omega
  have hpos : ({ r.processor with events := ev } : RecorderProcessor S).position < 4096 := ht.shape.position
  have hnl : ({ r.processor with events := ev } : RecorderProcessor S).notifications.length = 0 := by
    simp [h.empty]
  have hsent : ({ r.processor with events := ev } : RecorderProcessor S).sent = 0 := by
    simp [sent, h.empty]
  have hpl : ({ r.processor with events := ev } : RecorderProcessor S).pool.length =
    r.processor.pool.length := rfl
  have hdiv : (({ r.processor with events := ev } : RecorderProcessor S).position +
      (input.frames - 0)) / 4096 ≤ 1 := by omega
  obtain ⟨p1, c1, c2, c3⟩ := playEvents_works (fuel := fuel) (sr := r.processor.sampleRate)
    (n := input.frames) h0 hch (le_refl _) (by omega) due 0 start _ hsh
    (fun e he => by rw [hdue] at he; exact hok e (List.mem_filter.mp he).1) (Or.inl rfl) (Nat.zero_le _)
    (by rw [hdue]; exact htm.filter _) (fun e he => by
      rw [hdue, List.mem_filter] at he
      have h7 : e.time < Timestamp.incrementedBySamples start input.frames r.processor.sampleRate :=
        of_decide_eq_true he.2
      exact ⟨Nat.zero_le _, frameOf_lt hsr hn0 h7⟩) (by omega) (by omega)
  refine ⟨{ p1 with events := { ev with pending := ev.pending.filter (fun e => !decide (TimedEvent.time e <
      Timestamp.incrementedBySamples start input.frames r.processor.sampleRate)) } }, ?_, ?_, ?_, ?_, ?_⟩
  · unfold processAudio
    simp only
    rw [← hev, loop_play _ _ hsr start hlen ev.pending 0 start _ hn0 (Clock.start start _) htm
      (fun _ _ => Nat.zero_le _), ← hdue]
    have : ∀ x : Res (RecorderProcessor S), x = .ok p1 → (x.bind fun s => Except.ok (s,
        ev.pending.filter (fun e => !decide (TimedEvent.time e <
        Timestamp.incrementedBySamples start input.frames r.processor.sampleRate)))) = .ok (p1,
        ev.pending.filter (fun e => !decide (TimedEvent.time e <
        Timestamp.incrementedBySamples start input.frames r.processor.sampleRate))) := by
      intro x hx; rw [hx]; rfl
    rw [this _ c1]
    rfl
  · have : p1.sent ≤ 10 := by omega
    exact this
  · have : p1.pool.length + p1.sent = 32 := by omega
    exact this
  · exact e2
  · intro e he
    simp only at he
    rw [List.mem_filter] at he
    have hno : e ∉ due := by
      intro hd
      rw [hdue, List.mem_filter] at hd
      rw [hd.2] at he
      simp at he
    constructor
    · cases hb : isReturn e with
      | false => rfl
      | true => exact absurd (hnow e he.1 (Or.inl hb)) hno
    · cases hb : isStart e with
      | false => rfl
      | true => exact absurd (hnow e he.1 (Or.inr hb)) hno

/-- The whole round. -/
theorem round_works [Zero S] {sr ch fuel : Nat} (hsr : 0 < sr) (h32 : sr ≤ 2 ^ 32) (hf : 4096 ≤ fuel)
    (as : List (RecorderAction S)) (input : Grid S) (start : Int)
    (ha : RecorderAction.Ok sr ch (.block input start)) (hn : input.frames ≤ 4096) :
    ∀ {r : Recorder S} {k : Nat}, r.Asked k → k + as.length ≤ 8 → (∀ a ∈ as, a.IsRequest) →
    ∀ {taken : List (List S)} {q : Recorded S}, r.Tracks sr ch taken q →
    ∃ r' out, r.run fuel (as ++ [.block input start, .notifications]) = .ok (r', out) ∧ r'.Rested ∧
      ∃ taken' q', r'.Tracks sr ch taken' q' := by
  induction as with
  | nil =>
    intro r k h hk _ taken q ht
    obtain ⟨p', b1, b2, b3, b4, b5⟩ := h.block hsr h32 (by simpa using hk) ht input start ha hn hf
    have ht2 := audio_tracks hsr ht ha b1
    have hroom : p'.events.channel.length + p'.notifications.countP RecorderNotification.isData ≤ 32 := by
      rw [b4]; unfold sent at b2; simp; omega
    obtain ⟨r', c1, c, c2, c3, c4⟩ := receive_works (ch := ch) p'.notifications
      { r with processor := { p' with notifications := [] } } ht2.shape.notifications ht2.recordingOk hroom
    have hs1 : r.step fuel (.block input start) = .ok ({ r with processor := p' }, none) := by
      unfold step
      simp only
      rw [b1]
      rfl
    have hs2 : ({ r with processor := p' } : Recorder S).step fuel .notifications = .ok (r', none) := by
      unfold step processNotifications
      simp only
      rw [c1]
      rfl
    refine ⟨r', [], ?_, ?_, ?_⟩
    · unfold run
      refine (ok_bind hs1).trans ?_
      simp only
      unfold run
      refine (ok_bind (?_ : _ = Except.ok (r', []))).trans rfl
      refine (ok_bind hs2).trans ?_
      rfl
    · unfold sent at b2 b3
      have b4' : p'.events.channel = [] := b4
      refine ⟨by rw [c2], ?_, ?_, ?_, ?_⟩
      · rw [c2]
        simp only [b4', List.nil_append]
        rw [c3]
        exact b3
      · rw [c2]
        simp only [b4', List.nil_append]
        rw [c3]
        exact b2
      · rw [c2]
        simp only [b4', List.nil_append]
        exact c4
      · rw [c2]
        exact b5
    · have := step_tracks hsr ht2 .notifications trivial hs2
      exact ⟨_, _, this⟩
  | cons a as ih =>
    intro r k h hk har taken q ht
    rw [List.length_cons] at hk
    have haq := har a List.mem_cons_self
    obtain ⟨r1, o, s1, s2⟩ := h.step (fuel := fuel) (by omega) a haq
    have hao : a.Ok sr ch := by cases a <;> first | trivial | exact absurd haq id
    have ht1 := step_tracks hsr ht a hao s1
    obtain ⟨r', out, d1, d2, d3⟩ := ih s2 (by omega) (fun x hx => har x (List.mem_cons_of_mem _ hx)) ht1
    refine ⟨r', o.toList ++ out, ?_, d2, d3⟩
    rw [List.cons_append]
    unfold run
    refine (ok_bind s1).trans ?_
    simp only
    refine (ok_bind d1).trans ?_
    rfl

end Recorder
end Rawdio
