import Verif.Spec.Adsr
import Verif.Lemmas.RecorderStall

/-! # The ADSR node: blocks are processed frame by frame -/

namespace Rawdio

open EventProcessor TimedEvent

/-- No events: plain processing. -/
theorem adsrValues_skip (events : List (Nat × AdsrEventType)) (n : Nat) : ∀ (f k : Nat) (e : AdsrEnvelope),
    f + n ≤ k → (∀ x ∈ events, k ≤ x.1) → adsrValues events f n e = adsrValues [] f n e := by
  induction n with
  | zero => intro f k e _ _; rfl
  | succ n ih =>
    intro f k e hk hev
    have h0 : events.filter (fun x => x.1 = f) = [] := by
      rw [List.filter_eq_nil_iff]
      intro x hx
      have := hev x hx
      simp
      omega
    simp only [adsrValues, h0, List.filter_nil]
    rw [ih (f + 1) k _ (by omega) hev]

theorem adsrValues_append (events : List (Nat × AdsrEventType)) (n m : Nat) : ∀ (f : Nat) (e : AdsrEnvelope),
    adsrValues events f (n + m) e =
      ((adsrValues events (f + n) m (adsrValues events f n e).1).1,
        (adsrValues events f n e).2 ++ (adsrValues events (f + n) m (adsrValues events f n e).1).2) := by
  induction n with
  | zero => intro f e; simp [adsrValues]
  | succ n ih =>
    intro f e
    have : n + 1 + m = (n + m) + 1 := by omega
    rw [this]
    simp only [adsrValues]
    rw [ih (f + 1)]
    have h2 : f + 1 + n = f + (n + 1) := by omega
    rw [h2]
    simp

theorem adsrValues_drop (x : Nat × AdsrEventType) (events : List (Nat × AdsrEventType)) (n : Nat) :
    ∀ (f : Nat) (e : AdsrEnvelope), x.1 < f → adsrValues (x :: events) f n e = adsrValues events f n e := by
  induction n with
  | zero => intro f e _; rfl
  | succ n ih =>
    intro f e hf
    have h0 : (x :: events).filter (fun x => x.1 = f) = events.filter (fun x => x.1 = f) := by
      rw [List.filter_cons_of_neg]
      simp
      omega
    simp only [adsrValues, h0]
    rw [ih (f + 1) _ (by omega)]

/-- The first event. -/
theorem adsrValues_cons (x : Nat × AdsrEventType) (events : List (Nat × AdsrEventType)) (n : Nat) (hn : 0 < n)
    (e : AdsrEnvelope) :
    adsrValues (x :: events) x.1 n e = adsrValues events x.1 n (e.apply x.2) := by
  obtain ⟨m, rfl⟩ : ∃ m, n = m + 1 := ⟨n - 1, by omega⟩
  have h0 : (x :: events).filter (fun y => y.1 = x.1) = x :: events.filter (fun y => y.1 = x.1) :=
    List.filter_cons_of_pos (by simp)
  simp only [adsrValues, h0, List.foldl_cons]
  rw [adsrValues_drop x events m (x.1 + 1) _ (by omega)]

theorem adsrValues_length (events : List (Nat × AdsrEventType)) (n : Nat) : ∀ (f : Nat) (e : AdsrEnvelope),
    (adsrValues events f n e).2.length = n := by
  induction n with
  | zero => intro f e; rfl
  | succ n ih => intro f e; simp [adsrValues, ih]

namespace AdsrProcessor

/-- Values written from a position on. -/
def write (values : Nat → ℝ) (position : Nat) (l : List ℝ) (f : Nat) : ℝ :=
  if h : position ≤ f ∧ f - position < l.length then l[f - position]'h.2 else values f

theorem write_nil (values : Nat → ℝ) (position : Nat) : write values position [] = values := by
  funext f
  simp [write]

theorem write_append (values : Nat → ℝ) (position : Nat) (l m : List ℝ) :
    write (write values position l) (position + l.length) m = write values position (l ++ m) := by
  funext f
  unfold write
  by_cases h1 : position + l.length ≤ f ∧ f - (position + l.length) < m.length
  · rw [dif_pos h1, dif_pos (by rw [List.length_append]; omega)]
    rw [List.getElem_append_right (by omega)]
    congr 1
    omega
  · rw [dif_neg h1]
    by_cases h2 : position ≤ f ∧ f - position < l.length
    · rw [dif_pos h2, dif_pos (by rw [List.length_append]; omega), List.getElem_append_left]
    · rw [dif_neg h2, dif_neg (by rw [List.length_append]; omega)]

theorem render_eq (p : AdsrProcessor) (position n : Nat) (h : position + n ≤ p.capacity) :
    p.render position n = .ok { p with
      envelope := (adsrValues [] position n p.envelope).1
      values := write p.values position (adsrValues [] position n p.envelope).2 } := by
  unfold render
  induction n with
  | zero => simp [adsrValues, write_nil, pure, Except.pure]
  | succ n ih =>
    rw [List.range_succ, List.foldlM_append, ih (by omega)]
    simp only [List.foldlM_cons, List.foldlM_nil, bind_pure]
    change renderFrame _ (n + position) = _
    unfold renderFrame
    rw [if_pos (by simp only; omega)]
    rw [adsrValues_append [] n 1]
    simp only [adsrValues, List.filter_nil, List.foldl_nil]
    rw [← write_append, adsrValues_length]
    congr 2
    funext f
    by_cases hf : f = n + position
    · subst hf
      rw [if_pos rfl, write, dif_pos (by simp only [List.length_singleton]; omega)]
      simp
    · rw [if_neg hf]
      conv_rhs => rw [write]
      rw [dif_neg (by simp only [List.length_singleton]; omega)]

/-- The frames and kinds of events. -/
def framed (start : Int) (sr : Nat) (es : List AdsrEvent) : List (Nat × AdsrEventType) :=
  es.map (fun e => (frameOf start e.time sr, e.eventType))

theorem play_eq {sr n : Nat} {start : Int} : ∀ (es : List AdsrEvent) (position : Nat) (cur : Int)
    (p : AdsrProcessor), es.Pairwise (fun a b => a.time ≤ b.time) → position ≤ n →
    (∀ e ∈ es, position ≤ frameOf start e.time sr ∧ frameOf start e.time sr < n) → n ≤ p.capacity →
    playEvents render processEvent sr start n es position cur p = .ok { p with
      envelope := (adsrValues (framed start sr es) position (n - position) p.envelope).1
      values := write p.values position
        (adsrValues (framed start sr es) position (n - position) p.envelope).2 } := by
  intro es
  induction es with
  | nil =>
    intro position cur p _ hpn _ hc
    exact render_eq p position (n - position) (by omega)
  | cons e es ih =>
    intro position cur p hsort hpn hb hc
    obtain ⟨hs1, hs2⟩ := List.pairwise_cons.mp hsort
    obtain ⟨b1, b2⟩ := hb e List.mem_cons_self
    obtain ⟨k, hk⟩ : ∃ k, k = frameOf start e.time sr := ⟨_, rfl⟩
    have hge : ∀ x ∈ framed start sr (e :: es), k ≤ x.1 := by
      intro x hx
      obtain ⟨y, hy, rfl⟩ := List.mem_map.mp hx
      rcases List.mem_cons.mp hy with rfl | hy
      · exact hk.le
      · rw [hk]; exact frameOf_mono sr (hs1 y hy)
    have hr := render_eq p position (k - position) (by omega)
    rw [← adsrValues_skip (framed start sr (e :: es)) (k - position) position k p.envelope (by omega) hge] at hr
    simp only [playEvents]
    have htime : TimedEvent.time e = e.time := rfl
    rw [htime, ← hk, hr]
    simp only [Except.bind, processEvent]
    have hih := fun c q hq => ih k c q hs2 (by omega) (fun x hx => ⟨by rw [hk]; exact frameOf_mono sr (hs1 x hx),
      (hb x (List.mem_cons_of_mem _ hx)).2⟩) hq
    rw [hih _ _ (by exact hc)]
    have hsplit : n - position = (k - position) + (n - k) := by omega
    rw [hsplit, adsrValues_append]
    have hpk : position + (k - position) = k := by omega
    rw [hpk]
    have hcons := adsrValues_cons (k, e.eventType) (framed start sr es) (n - k) (by omega)
      (adsrValues (framed start sr (e :: es)) position (k - position) p.envelope).1
    have hfr : framed start sr (e :: es) = (k, e.eventType) :: framed start sr es := by
      rw [hk]; rfl
    rw [hfr] at hcons ⊢
    simp only at hcons
    rw [hcons, ← write_append, adsrValues_length, hpk]

/-- What a block does. -/
theorem prepare_eq {p : AdsrProcessor} {n : Nat} {start : Int} (hsr : 0 < p.events.sampleRate) (hn : 0 < n)
    (hlen : n * p.events.sampleRate ≤ 2 ^ 33) (hc : n ≤ p.capacity)
    (hsort : p.events.receiveEvents.pending.Pairwise (fun a b => a.time ≤ b.time)) :
    ∃ q : AdsrProcessor, p.prepareEnvelope n start = .ok q ∧
      let due := p.events.receiveEvents.pending.filter
        (fun e => decide (e.time < Timestamp.incrementedBySamples start n p.events.sampleRate))
      q.envelope = (adsrValues (framed start p.events.sampleRate due) 0 n p.envelope).1 ∧
      (∀ f, (h : f < n) → q.values f =
        (adsrValues (framed start p.events.sampleRate due) 0 n p.envelope).2[f]'(by
          rw [adsrValues_length]; exact h)) ∧
      q.capacity = p.capacity ∧ q.events.sampleRate = p.events.receiveEvents.sampleRate ∧
      q.events.channel = p.events.receiveEvents.channel ∧
      q.events.pending = p.events.receiveEvents.pending.filter
        (fun e => !decide (e.time < Timestamp.incrementedBySamples start n p.events.sampleRate)) := by
  obtain ⟨due, hdue⟩ : ∃ due, due = p.events.receiveEvents.pending.filter
        (fun e => decide (e.time < Timestamp.incrementedBySamples start n p.events.sampleRate)) := ⟨_, rfl⟩
  have hplay := play_eq (sr := p.events.sampleRate) (n := n) (start := start) due 0 start
    { p with events := p.events.receiveEvents } (by rw [hdue]; exact hsort.filter _) (Nat.zero_le _)
    (fun e he => by
      rw [hdue, List.mem_filter] at he
      exact ⟨Nat.zero_le _, frameOf_lt hsr hn (of_decide_eq_true he.2)⟩) hc
  simp only [Nat.sub_zero] at hplay
  have hl := loop_play render processEvent hsr start hlen p.events.receiveEvents.pending 0 start
    { p with events := p.events.receiveEvents } hn (Clock.start start _) hsort (fun _ _ => Nat.zero_le _)
  have hfil : p.events.receiveEvents.pending.filter
        (fun e => decide (TimedEvent.time e < Timestamp.incrementedBySamples start n p.events.sampleRate)) =
      due := hdue.symm
  rw [hfil, hplay] at hl
  refine ⟨⟨⟨p.events.receiveEvents.pending.filter
        (fun e => !decide (e.time < Timestamp.incrementedBySamples start n p.events.sampleRate)),
        p.events.receiveEvents.channel, p.events.receiveEvents.sampleRate⟩,
      (adsrValues (framed start p.events.sampleRate due) 0 n p.envelope).1, p.capacity,
      write p.values 0 (adsrValues (framed start p.events.sampleRate due) 0 n p.envelope).2⟩, ?_, ?_⟩
  · unfold prepareEnvelope
    refine (ok_bind hl).trans ?_
    rfl
  · simp only
    rw [← hdue]
    refine ⟨rfl, ?_, by trivial, by trivial, by trivial, by first | trivial | rfl⟩
    intro f hf
    unfold write
    rw [dif_pos ⟨Nat.zero_le _, by rw [adsrValues_length]; exact hf⟩]
    rfl

end AdsrProcessor
end Rawdio
