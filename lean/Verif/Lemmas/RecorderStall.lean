import Verif.Lemmas.RecorderLive

/-! # A recorder whose notifications are not collected; an idle recorder -/

namespace Rawdio

variable {S : Type}

open EventProcessor RecorderEvent

/-- What rendering and events preserve, the loop over the events of a block preserves. -/
theorem EventProcessor.loop_preserves {E σ : Type} [TimedEvent E] {render : σ → Nat → Nat → Res σ}
    {apply : σ → E → Int → Res σ} {sr n : Nat} {start : Int} (P : σ → Prop)
    (h1 : ∀ s a b s', P s → render s a b = .ok s' → P s')
    (h2 : ∀ s e t s', P s → apply s e t = .ok s' → P s') :
    ∀ (m : Nat) (pending : List E) (position : Nat) (cur : Int) (s : σ) (o : σ × List E),
    pending.length = m → P s → loop render apply sr start n pending position cur s = .ok o → P o.1 := by
  intro m
  induction m using Nat.strong_induction_on with
  | _ m ih =>
    intro pending position cur s o hm hp h
    unfold loop at h
    split at h
    · split at h
      · rename_i endFrame e rest hne
        split at h
        · cases h
        · obtain ⟨s1, e1, h⟩ := bind_ok h
          obtain ⟨s2, e2, h⟩ := bind_ok h
          exact ih rest.length (by rw [← hm]; exact nextEvent_length hne) rest _ _ s2 o rfl
            (h2 _ _ _ _ (h1 _ _ _ _ hp e1) e2) h
      · obtain ⟨s1, e1, h⟩ := bind_ok h
        injection h with h
        subst h
        exact h1 _ _ _ _ hp e1
    · injection h with h
      subst h
      exact hp

namespace RecorderProcessor

theorem nextBuffer_events (p : RecorderProcessor S) (x : EventProcessor (RecorderEvent S)) :
    ({ p with events := x } : RecorderProcessor S).nextBuffer =
      p.nextBuffer.map (fun p => { p with events := x }) := by
  unfold nextBuffer notify
  simp only
  split
  · rfl
  · split <;> rfl

theorem nextIfFull_events (p : RecorderProcessor S) (x : EventProcessor (RecorderEvent S)) :
    ({ p with events := x } : RecorderProcessor S).nextIfFull =
      p.nextIfFull.map (fun p => { p with events := x }) := by
  unfold nextIfFull
  simp only
  split
  · exact nextBuffer_events p x
  · rfl

theorem copyLoop_events (input : Grid S) (s n ch : Nat) (x : EventProcessor (RecorderEvent S)) :
    ∀ (fuel position : Nat) (p : RecorderProcessor S),
      copyLoop input s n ch fuel position { p with events := x } =
        (copyLoop input s n ch fuel position p).map (fun p => { p with events := x }) := by
  intro fuel
  induction fuel with
  | zero => intro position p; unfold copyLoop; split <;> rfl
  | succ fuel ih =>
    intro position p
    unfold copyLoop
    split
    · simp only
      split
      · rfl
      · cases hc : p.current.copyFrom input position p.position ch
          (min (n - position) (p.current.frames - p.position)) with
        | error e => rfl
        | ok d =>
          simp only [bind, Except.bind]
          obtain ⟨k, hk⟩ : ∃ k, k = min (n - position) (p.current.frames - p.position) := ⟨_, rfl⟩
          rw [← hk]
          have := nextIfFull_events { p with current := d, position := p.position + k } x
          simp only at this
          rw [this]
          cases nextIfFull { p with current := d, position := p.position + k } with
          | error e => rfl
          | ok q => exact ih _ q
    · rfl

theorem process_events (fuel : Nat) (input : Grid S) (p : RecorderProcessor S) (a b : Nat)
    (x : EventProcessor (RecorderEvent S)) :
    process fuel input { p with events := x } a b =
      (process fuel input p a b).map (fun p => { p with events := x }) := by
  unfold process
  simp only
  split
  · exact copyLoop_events input _ _ _ x _ _ p
  · rfl

/-- While not recording, the current buffer is empty. -/
def Idle (p : RecorderProcessor S) : Prop := p.recording = false → p.position = 0

theorem nextBuffer_idle {p p' : RecorderProcessor S} (h : p.nextBuffer = .ok p') :
    p'.position = 0 ∧ p'.recording = p.recording := by
  obtain ⟨next, -, -, rfl⟩ := nextBuffer_ok h
  exact ⟨rfl, rfl⟩

theorem copyLoop_recording (input : Grid S) (s n ch : Nat) :
    ∀ (fuel position : Nat) (p p' : RecorderProcessor S), copyLoop input s n ch fuel position p = .ok p' →
      p'.recording = p.recording := by
  intro fuel
  induction fuel with
  | zero =>
    intro position p p' h
    unfold copyLoop at h
    split at h
    · cases h
    · injection h with h; subst h; rfl
  | succ fuel ih =>
    intro position p p' h
    unfold copyLoop at h
    split at h
    · split at h
      · cases h
      · obtain ⟨d, -, h⟩ := bind_ok h
        obtain ⟨q, hq, h⟩ := bind_ok h
        have : q.recording = p.recording := by
          unfold nextIfFull at hq
          split at hq
          · exact (nextBuffer_idle hq).2
          · injection hq with hq; subst hq; rfl
        rw [← this]
        exact ih _ _ _ h
    · injection h with h; subst h; rfl

theorem process_idle {fuel : Nat} {input : Grid S} {p p' : RecorderProcessor S} {a b : Nat} (hp : p.Idle)
    (h : process fuel input p a b = .ok p') : p'.Idle := by
  unfold process at h
  split at h
  · rename_i hr
    intro hf
    rw [copyLoop_recording _ _ _ _ _ _ _ _ h, hr] at hf
    cases hf
  · injection h with h; subst h; exact hp

theorem processEvent_idle [Zero S] {p p' : RecorderProcessor S} {e : RecorderEvent S} {t : Int} (hp : p.Idle)
    (h : p.processEvent e t = .ok p') : p'.Idle := by
  unfold processEvent at h
  split at h
  · unfold start at h
    split at h
    · injection h with h; subst h; exact hp
    · obtain ⟨-, rfl⟩ := notify_ok h
      intro hf
      cases hf
  · unfold stop at h
    split at h
    · obtain ⟨q, hq, h⟩ := bind_ok h
      obtain ⟨-, rfl⟩ := notify_ok h
      intro _
      exact (nextBuffer_idle hq).1
    · injection h with h; subst h; exact hp
  · injection h with h; subst h; exact hp

theorem processAudio_idle [Zero S] {fuel : Nat} {p p' : RecorderProcessor S} {input : Grid S} {start : Int}
    (hp : p.Idle) (h : p.processAudio fuel input start = .ok p') : p'.Idle := by
  unfold processAudio at h
  obtain ⟨⟨q, pending⟩, hq, h⟩ := bind_ok h
  injection h with h
  subst h
  have := loop_preserves (fun p : RecorderProcessor S => p.Idle)
    (fun s a b s' hs hr => process_idle hs hr) (fun s e t s' hs hr => processEvent_idle hs hr)
    _ _ _ _ _ _ rfl (by exact hp) hq
  exact this

end RecorderProcessor

namespace Recorder

open RecorderProcessor

theorem receive_processor [Zero S] : ∀ (ns : List (RecorderNotification S)) (r r' : Recorder S),
    ns.foldlM receive r = .ok r' →
    ∃ c, r'.processor = { r.processor with events := { r.processor.events with channel := c } } := by
  intro ns
  induction ns with
  | nil => intro r r' h; injection h with h; subst h; exact ⟨_, rfl⟩
  | cons n ns ih =>
    intro r r' h
    rw [List.foldlM_cons] at h
    obtain ⟨r1, h1, h⟩ := bind_ok h
    obtain ⟨c, hc⟩ := ih r1 r' h
    have : ∃ c, r1.processor = { r.processor with events := { r.processor.events with channel := c } } := by
      unfold receive at h1
      split at h1
      · injection h1 with h1; subst h1; exact ⟨_, rfl⟩
      · obtain ⟨r2, h2, h1⟩ := bind_ok h1
        obtain ⟨-, rfl⟩ := send_ok h1
        have : r2.processor = r.processor := by
          unfold appendBuffer at h2
          split at h2
          · cases h2
          · split at h2
            · split at h2
              · cases h2
              · obtain ⟨_, -, h2⟩ := bind_ok h2
                obtain ⟨_, -, h2⟩ := bind_ok h2
                injection h2 with h2; subst h2; rfl
            · obtain ⟨_, -, h2⟩ := bind_ok h2
              injection h2 with h2; subst h2; rfl
        rw [← this]
        exact ⟨_, rfl⟩
      · injection h1 with h1; subst h1; exact ⟨_, rfl⟩
    obtain ⟨c', hc'⟩ := this
    exact ⟨c, by rw [hc, hc']⟩

theorem step_idle [Zero S] {fuel : Nat} {r r' : Recorder S} {a : RecorderAction S} {o : Option (Grid S)}
    (hp : r.processor.Idle) (h : r.step fuel a = .ok (r', o)) : r'.processor.Idle := by
  have hsend : ∀ t k, (r.send t k).map (·, (none : Option (Grid S))) = .ok (r', o) → r'.processor.Idle := by
    intro t k h
    cases hs : r.send t k with
    | error e => rw [hs] at h; cases h
    | ok x =>
      rw [hs] at h
      injection h with h
      injection h with h _
      subst h
      obtain ⟨-, rfl⟩ := send_ok hs
      exact hp
  unfold step at h
  split at h
  · exact hsend _ _ h
  · exact hsend _ _ h
  · exact hsend _ _ h
  · injection h with h; injection h with h _; subst h; exact hp
  · cases hs : r.processNotifications with
    | error e => rw [hs] at h; cases h
    | ok x =>
      rw [hs] at h
      injection h with h
      injection h with h _
      subst h
      obtain ⟨c, hc⟩ := receive_processor _ _ _ hs
      rw [hc]
      exact hp
  · injection h with h; injection h with h _; subst h; exact hp
  · rename_i input startTime
    cases hs : r.processor.processAudio fuel input startTime with
    | error e => rw [hs] at h; cases h
    | ok x =>
      rw [hs] at h
      injection h with h
      injection h with h _
      subst h
      exact processAudio_idle hp hs

theorem run_idle [Zero S] {fuel : Nat} (as : List (RecorderAction S)) :
    ∀ {r r' : Recorder S} {out : List (Grid S)}, r.processor.Idle → r.run fuel as = .ok (r', out) →
    r'.processor.Idle := by
  induction as with
  | nil => intro r r' out hp h; injection h with h; injection h with h _; subst h; exact hp
  | cons a as ih =>
    intro r r' out hp h
    unfold run at h
    obtain ⟨⟨r1, o⟩, h1, h⟩ := bind_ok h
    obtain ⟨⟨r2, o2⟩, h2, h⟩ := bind_ok h
    injection h with h
    injection h with h _
    subst h
    exact ih (step_idle hp h1) h2

theorem run_append [Zero S] {fuel : Nat} (as bs : List (RecorderAction S)) :
    ∀ {r r' : Recorder S} {out : List (Grid S)}, r.run fuel (as ++ bs) = .ok (r', out) →
    ∃ r1 o1 o2, r.run fuel as = .ok (r1, o1) ∧ r1.run fuel bs = .ok (r', o2) ∧ out = o1 ++ o2 := by
  induction as with
  | nil => intro r r' out h; exact ⟨r, [], out, rfl, h, rfl⟩
  | cons a as ih =>
    intro r r' out h
    rw [List.cons_append] at h
    unfold run at h
    obtain ⟨⟨r1, o⟩, h1, h⟩ := bind_ok h
    obtain ⟨⟨r2, o2⟩, h2, h⟩ := bind_ok h
    injection h with h
    injection h with h h'
    subst h h'
    obtain ⟨r3, a1, a2, b1, b2, rfl⟩ := ih h2
    refine ⟨r3, o.toList ++ a1, a2, ?_, b2, by simp⟩
    unfold run
    refine (ok_bind h1).trans ?_
    refine (ok_bind b1).trans ?_
    rfl

theorem run_ok_append [Zero S] {fuel : Nat} (as bs : List (RecorderAction S)) :
    ∀ {r r1 r2 : Recorder S} {o1 o2 : List (Grid S)}, r.run fuel as = .ok (r1, o1) →
    r1.run fuel bs = .ok (r2, o2) → r.run fuel (as ++ bs) = .ok (r2, o1 ++ o2) := by
  induction as with
  | nil =>
    intro r r1 r2 o1 o2 h1 h2
    injection h1 with h1
    injection h1 with h1 h1'
    subst h1 h1'
    exact h2
  | cons a as ih =>
    intro r r1 r2 o1 o2 h1 h2
    unfold run at h1
    obtain ⟨⟨r3, o⟩, a1, h1⟩ := bind_ok h1
    obtain ⟨⟨r4, o4⟩, a2, h1⟩ := bind_ok h1
    injection h1 with h1
    injection h1 with h1 h1'
    subst h1 h1'
    rw [List.cons_append]
    unfold run
    refine (ok_bind a1).trans ?_
    refine (ok_bind (ih a2 h2)).trans ?_
    simp only [List.append_assoc]

/-- After a pass of notifications only the current buffer is left. -/
theorem notifications_step [Zero S] {fuel : Nat} {r r' : Recorder S} {o : Option (Grid S)}
    (h : r.step fuel .notifications = .ok (r', o)) :
    r'.processor.notifications = [] ∧ r'.processor.position = r.processor.position ∧
      r'.processor.recording = r.processor.recording ∧ o = none := by
  unfold step at h
  cases hs : r.processNotifications with
  | error e => rw [hs] at h; cases h
  | ok x =>
    rw [hs] at h
    injection h with h
    injection h with h h'
    subst h h'
    obtain ⟨c, hc⟩ := receive_processor _ _ _ hs
    rw [hc]
    exact ⟨rfl, rfl, rfl, rfl⟩

/-- A recorder that has recorded `T` frames since it was new, none of which have been collected. -/
structure Uncollected (ch T : Nat) (r : Recorder S) : Prop where
  shape : r.processor.Shape ch
  recording : r.processor.recording = true
  pending : r.processor.events.pending = []
  channel : r.processor.events.channel = []
  notifications : r.processor.notifications.length = 1 + T / 4096
  pool : r.processor.pool.length + T / 4096 = 32
  position : r.processor.position = T % 4096

theorem loop_nil {E σ : Type} [TimedEvent E] {render : σ → Nat → Nat → Res σ}
    {apply : σ → E → Int → Res σ} {sr n : Nat} {start cur : Int} {s : σ} (hn : 0 < n) :
    loop render apply sr start n ([] : List E) 0 cur s =
      (render s 0 n).bind (fun s => .ok (s, [])) := by
  unfold loop
  rw [if_pos hn]
  rfl

theorem Uncollected.block [Zero S] {ch T fuel : Nat} {r : Recorder S} (h : r.Uncollected ch T)
    (input : Grid S) (start : Int) (hn : 0 < input.frames) (hch : ch ≤ input.channels)
    (hf : input.frames ≤ fuel) (hT : T < 131072) :
    if T + input.frames < 131072 then
      ∃ r', r.step fuel (.block input start) = .ok (r', none) ∧ r'.Uncollected ch (T + input.frames)
    else r.step fuel (.block input start) = .error .block := by
  have hre : r.processor.events.receiveEvents = r.processor.events := by
    unfold receiveEvents
    rw [h.channel]
  have hpr : r.processor.processAudio fuel input start =
      (copyLoop input 0 input.frames ch fuel 0 r.processor).bind
        (fun p => .ok { p with events := r.processor.events }) := by
    unfold processAudio
    simp only [hre]
    rw [h.pending, loop_nil hn]
    unfold process
    simp only
    rw [if_pos h.recording, h.shape.current.1, Nat.min_eq_right hch]
    have hev : (⟨[], r.processor.events.channel, r.processor.events.sampleRate⟩ :
        EventProcessor (RecorderEvent S)) = r.processor.events := by
      cases he : r.processor.events with
      | mk a b c => have := h.pending; rw [he] at this; simp only at this; subst this; rfl
    cases copyLoop input 0 input.frames ch fuel 0 r.processor with
    | error e => rfl
    | ok x =>
      simp only [bind, Except.bind]
      rw [hev]
  have hN := h.notifications
  have hP := h.pool
  have hpos := h.position
  split
  · rename_i hlt
    obtain ⟨p, e1, e2, e3, e4, e5⟩ := copyLoop_works input input.frames hch (le_refl _) fuel 0 r.processor
      h.shape (Nat.zero_le _) (by omega) (by omega) (by omega)
    obtain ⟨s1, -, s3, -, -, -⟩ := copyLoop_spec input input.frames fuel 0 r.processor p h.shape
      (Nat.zero_le _) e1
    refine ⟨{ r with processor := { p with events := r.processor.events } }, ?_, ?_⟩
    · unfold step
      simp only
      rw [hpr, e1]
      rfl
    · refine ⟨⟨s1.current, s1.position, s1.pool, s1.notifications⟩, s3.trans h.recording, h.pending,
        h.channel, ?_, ?_, ?_⟩
      · simp only; omega
      · simp only; omega
      · simp only; omega
  · rename_i hge
    unfold step
    simp only
    rw [hpr, copyLoop_waits input input.frames hch (le_refl _) fuel 0 r.processor h.shape (Nat.zero_le _)
      (by omega) (by omega) (by omega) (by omega)]
    rfl

/-- The frames of a list of blocks. -/
def totalFrames (blocks : List (Grid S × Int)) : Nat := (blocks.map (fun b => b.1.frames)).sum

theorem Uncollected.blocks [Zero S] {ch fuel : Nat} (blocks : List (Grid S × Int)) :
    ∀ {T : Nat} {r : Recorder S}, r.Uncollected ch T → T < 131072 →
    (∀ b ∈ blocks, 0 < b.1.frames ∧ ch ≤ b.1.channels ∧ b.1.frames ≤ fuel) →
    if T + totalFrames blocks < 131072 then
      ∃ r', r.run fuel (blocks.map (fun b => .block b.1 b.2)) = .ok (r', []) ∧
        r'.Uncollected ch (T + totalFrames blocks)
    else r.run fuel (blocks.map (fun b => .block b.1 b.2)) = .error .block := by
  induction blocks with
  | nil =>
    intro T r h hT _
    rw [if_pos (by simpa [totalFrames] using hT)]
    exact ⟨r, rfl, h⟩
  | cons b bs ih =>
    intro T r h hT hb
    obtain ⟨b1, b2, b3⟩ := hb b List.mem_cons_self
    have hstep := h.block b.1 b.2 b1 b2 b3 hT
    have htot : totalFrames (b :: bs) = b.1.frames + totalFrames bs := by simp [totalFrames]
    rw [htot, ← Nat.add_assoc, List.map_cons]
    by_cases hlt : T + b.1.frames < 131072
    · rw [if_pos hlt] at hstep
      obtain ⟨r1, h1, h2⟩ := hstep
      have hrest := ih h2 hlt (fun x hx => hb x (List.mem_cons_of_mem _ hx))
      split
      · rename_i hl
        rw [if_pos hl] at hrest
        obtain ⟨r', h3, h4⟩ := hrest
        refine ⟨r', ?_, h4⟩
        unfold run
        refine (ok_bind h1).trans ?_
        exact (ok_bind h3).trans rfl
      · rename_i hl
        rw [if_neg hl] at hrest
        unfold run
        refine (ok_bind h1).trans ?_
        simp only
        rw [hrest]
        rfl
    · rw [if_neg hlt] at hstep
      rw [if_neg (by omega)]
      unfold run
      rw [hstep]
      rfl

/-- A new recorder that is asked to record: the first block. -/
theorem first_block [Zero S] {sr ch first fuel : Nat} (hsr : 0 < sr) (h32 : sr ≤ 2 ^ 32) (input : Grid S)
    (start : Int) (h0 : 0 ≤ start) (hn : 0 < input.frames) (hlen : input.frames * sr ≤ 2 ^ 33) :
    ∃ r1 : Recorder S, (new sr ch first : Recorder S).step fuel .recordNow = .ok (r1, none) ∧
      ∃ r2 : Recorder S, r2.Uncollected ch 0 ∧
        r1.step fuel (.block input start) = r2.step fuel (.block input start) := by
  refine ⟨_, rfl, ?_⟩
  let e : RecorderEvent S := ⟨first, Timestamp.zero, .start⟩
  let p0 : RecorderProcessor S := RecorderProcessor.new sr ch
  let p1 : RecorderProcessor S := { p0 with events := ⟨[], [], sr⟩, recording := true, notifications := [.start] }
  refine ⟨⟨p1, none, false, first + 1⟩, ?_, ?_⟩
  · have hs := (new_tracks (S := S) sr ch first).shape
    refine ⟨⟨hs.current, hs.position, hs.pool, ?_⟩, rfl, rfl, rfl, rfl, ?_, rfl⟩
    · intro n hn
      simp only [p1, List.mem_singleton] at hn
      subst hn
      trivial
    · simp [p1, p0, RecorderProcessor.new, recorderBufferCount]
  · have hend : Timestamp.zero < Timestamp.incrementedBySamples start input.frames sr := by
      have := fromSamples_pos hsr h32 hn
      unfold Timestamp.incrementedBySamples
      simp only [Timestamp.zero]
      omega
    have hfz : frameOf start Timestamp.zero sr = 0 := frameOf_zero h0 sr
    have hl : ∀ s : RecorderProcessor S, loop (process fuel input) processEvent sr start input.frames
        [e] 0 start s = (playEvents (process fuel input) processEvent sr start input.frames
          [e] 0 start s).bind (fun s => .ok (s, [])) := by
      intro s
      have := loop_play (process fuel input) processEvent hsr start hlen [e] 0 start s hn
        (Clock.start start _) (List.pairwise_singleton _ _) (fun _ _ => Nat.zero_le _)
      have hd : decide (TimedEvent.time e < Timestamp.incrementedBySamples start input.frames sr) = true :=
        decide_eq_true hend
      rw [this, List.filter_cons_of_pos (by exact hd), List.filter_cons_of_neg (by rw [hd]; simp)]
      rfl
    have hz : ∀ s : RecorderProcessor S, process fuel input s 0 0 = .ok s := by
      intro s
      unfold process
      split
      · cases fuel <;> rfl
      · rfl
    have key : ({ p0 with events := ⟨[], [e], sr⟩ } : RecorderProcessor S).processAudio fuel input start =
        p1.processAudio fuel input start := by
      have e1 : (⟨[], [e], sr⟩ : EventProcessor (RecorderEvent S)).receiveEvents = ⟨[e], [], sr⟩ := by
        simp [receiveEvents, EventProcessor.push]
      have e2 : (⟨[], [], sr⟩ : EventProcessor (RecorderEvent S)).receiveEvents = ⟨[], [], sr⟩ := rfl
      unfold processAudio
      simp only [p1, e1, e2]
      have hsr0 : p0.sampleRate = sr := rfl
      rw [hsr0, hl, loop_nil hn]
      have hplay : ∀ s : RecorderProcessor S, playEvents (process fuel input) processEvent sr start
          input.frames [e] 0 start s = (processEvent s e (start + Timestamp.fromSamples ((0 : Nat) : ℚ) sr)).bind
            (fun s => process fuel input s 0 input.frames) := by
        intro s
        simp only [playEvents]
        have : frameOf start (TimedEvent.time e) sr = 0 := hfz
        rw [this, Nat.sub_zero, hz]
        rfl
      rw [hplay]
      have hpe : ∀ t, processEvent ({ p0 with sampleRate := sr, events := ⟨[e], [], sr⟩ } : RecorderProcessor S)
          e t = .ok { p0 with sampleRate := sr, events := ⟨[e], [], sr⟩, recording := true,
                              notifications := [.start] } := fun _ => rfl
      rw [hpe]
      have hc := process_events fuel input
        ({ p0 with sampleRate := sr, events := ⟨[], [], sr⟩, recording := true, notifications := [.start] } :
          RecorderProcessor S) 0 input.frames ⟨[e], [], sr⟩
      simp only at hc
      simp only [Except.bind, bind]
      rw [hc]
      cases process fuel input
        ({ p0 with sampleRate := sr, events := ⟨[], [], sr⟩, recording := true, notifications := [.start] } :
          RecorderProcessor S) 0 input.frames <;> rfl
    have : ∀ x y : Res (RecorderProcessor S), x = y → ∀ f : RecorderProcessor S → Recorder S × Option (Grid S),
      x.map f = y.map f := by intro x y h f; rw [h]
    exact this _ _ key _

end Recorder
end Rawdio
