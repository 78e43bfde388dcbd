import Verif.Lemmas.Events

/-!
# Properties of timed events (C26 and C27)

They hold for every node that uses `EventProcessor`, since the processing of frames (`render`) and the
reaction to events (`apply`) are arbitrary.
-/

namespace Rawdio
namespace EventProcessor

open TimedEvent

variable {E : Type} [TimedEvent E]

/-- An event that is nothing but a time and a sequence number, for examples. -/
instance : TimedEvent (Int × Nat) := ⟨Prod.fst, fun _ => false, Prod.snd⟩

/-! ## C26 -/

/-- C26 in full: an event at the timestamp of a sample is due at the frame of that sample. -/
def EventsOnTheirSample : Prop :=
  ∀ (E : Type) [TimedEvent E] (e : E) (sr N k n : Nat), 0 < sr → sr ≤ 2 ^ 31 → k < n →
    time e = Timestamp.fromSamples ((N + k : Nat) : ℚ) sr →
    nextEvent sr [e] (Timestamp.fromSamples (N : ℚ) sr) (Timestamp.fromSamples (N : ℚ) sr) n =
      (k, some e, [])

theorem sample_distance (sr N k : Nat) :
    |((Timestamp.fromSamples ((N + k : Nat) : ℚ) sr - Timestamp.fromSamples (N : ℚ) sr : Int) : ℚ) -
      (k : ℚ) / sr * Timestamp.one| ≤ 1 := by
  have h1 := Timestamp.fromSamples_error ((N + k : Nat) : ℚ) sr
  have h2 := Timestamp.fromSamples_error (N : ℚ) sr
  rw [abs_le] at *
  push_cast at *
  have h3 : ((N : ℚ) + k) / sr * Timestamp.one = (N : ℚ) / sr * Timestamp.one + k / sr * Timestamp.one := by
    ring
  rw [h3] at h1
  constructor <;> linarith [h1.1, h1.2, h2.1, h2.2]

/-- C26: an event at the timestamp of a sample of a block is due in that block, at the frame of the sample
or the one before. Missing for the full claim: not the one before. -/
theorem C26_event_frame_partial (e : E) (sr N k n : Nat) (hsr : 0 < sr) (hlt : sr ≤ 2 ^ 31) (hk : k < n)
    (he : time e = Timestamp.fromSamples ((N + k : Nat) : ℚ) sr) :
    ∃ f, nextEvent sr [e] (Timestamp.fromSamples (N : ℚ) sr) (Timestamp.fromSamples (N : ℚ) sr) n =
      (f, some e, []) ∧ f ≤ k ∧ k ≤ f + 1 := by
  have hp : (0 : ℚ) < sr := by exact_mod_cast hsr
  have hu : (2 : ℚ) ≤ 1 / sr * Timestamp.one := by
    unfold Timestamp.one
    rw [div_mul_eq_mul_div, le_div_iff₀ hp]
    have : (sr : ℚ) ≤ 2 ^ 31 := by exact_mod_cast hlt
    linarith
  have hd := sample_distance sr N k
  rw [abs_le] at hd
  have hend : time e < Timestamp.incrementedBySamples (Timestamp.fromSamples (N : ℚ) sr) n sr := by
    unfold Timestamp.incrementedBySamples
    rw [he]
    have h1 := Timestamp.fromSamples_error (n : ℚ) sr
    rw [abs_le] at h1
    have h2 : ((k : ℚ) + 1) / sr * Timestamp.one ≤ (n : ℚ) / sr * Timestamp.one := by
      apply mul_le_mul_of_nonneg_right _ (Timestamp.one_pos.le)
      apply div_le_div_of_nonneg_right _ hp.le
      exact_mod_cast hk
    have h3 : ((k : ℚ) + 1) / sr * Timestamp.one = k / sr * Timestamp.one + 1 / sr * Timestamp.one := by ring
    have h4 : ((Timestamp.fromSamples ((N + k : Nat) : ℚ) sr - Timestamp.fromSamples (N : ℚ) sr : Int) : ℚ) <
        (Timestamp.fromSamples (n : ℚ) sr : ℚ) := by linarith [hd.2, h1.1]
    have h5 : Timestamp.fromSamples ((N + k : Nat) : ℚ) sr - Timestamp.fromSamples (N : ℚ) sr <
        Timestamp.fromSamples (n : ℚ) sr := by exact_mod_cast h4
    omega
  have hge : Timestamp.fromSamples (N : ℚ) sr ≤ time e := by
    rw [he]
    exact Timestamp.fromSamples_mono sr (by exact_mod_cast Nat.le_add_right N k)
  have hx : (k : ℚ) / sr * Timestamp.one * sr / 2 ^ 32 = k := by
    unfold Timestamp.one; field_simp; norm_num
  have hone : (1 : ℚ) * sr / 2 ^ 32 < 1 := by
    have : (sr : ℚ) ≤ 2 ^ 31 := by exact_mod_cast hlt
    rw [div_lt_one (by norm_num)]
    linarith
  refine ⟨frameOf (Timestamp.fromSamples (N : ℚ) sr) (time e) sr, ?_, ?_, ?_⟩
  · have : framePosition (Timestamp.fromSamples (N : ℚ) sr) (Timestamp.fromSamples (N : ℚ) sr)
        (time e) sr = frameOf (Timestamp.fromSamples (N : ℚ) sr) (time e) sr := by
      unfold framePosition
      rw [max_eq_left hge, asSamples_eq]
      rfl
    simp [nextEvent, nextEventBefore, hend, this]
  · unfold frameOf
    rw [he]
    have h1 := div_le_div_of_nonneg_right (mul_le_mul_of_nonneg_right
      (show ((Timestamp.fromSamples ((N + k : Nat) : ℚ) sr - Timestamp.fromSamples (N : ℚ) sr : Int) : ℚ) ≤
        (k : ℚ) / sr * Timestamp.one + 1 by linarith [hd.2]) hp.le) (show (0 : ℚ) ≤ 2 ^ 32 by norm_num)
    have h2 : ((k : ℚ) / sr * Timestamp.one + 1) * sr / 2 ^ 32 = k + 1 * sr / 2 ^ 32 := by
      rw [add_mul, add_div, hx]
    rw [h2] at h1
    have h3 : ((Timestamp.fromSamples ((N + k : Nat) : ℚ) sr - Timestamp.fromSamples (N : ℚ) sr : Int) : ℚ) *
        sr / 2 ^ 32 < ((k + 1 : Int) : ℚ) := by push_cast at h1 ⊢; linarith
    have := Int.floor_lt.mpr h3
    omega
  · unfold frameOf
    rw [he]
    have h1 := div_le_div_of_nonneg_right (mul_le_mul_of_nonneg_right
      (show (k : ℚ) / sr * Timestamp.one - 1 ≤
        ((Timestamp.fromSamples ((N + k : Nat) : ℚ) sr - Timestamp.fromSamples (N : ℚ) sr : Int) : ℚ) by
          linarith [hd.1]) hp.le) (show (0 : ℚ) ≤ 2 ^ 32 by norm_num)
    have h2 : ((k : ℚ) / sr * Timestamp.one - 1) * sr / 2 ^ 32 = k - 1 * sr / 2 ^ 32 := by
      rw [sub_mul, sub_div, hx]
    rw [h2] at h1
    have h3 : ((k - 1 : Int) : ℚ) ≤ ((Timestamp.fromSamples ((N + k : Nat) : ℚ) sr -
        Timestamp.fromSamples (N : ℚ) sr : Int) : ℚ) * sr / 2 ^ 32 := by push_cast at h1 ⊢; linarith
    have := Int.le_floor.mpr h3
    omega

example : ∃ f, nextEvent 44100 [(Timestamp.fromSamples ((1000 + 7 : Nat) : ℚ) 44100, 3)]
    (Timestamp.fromSamples (1000 : Nat) 44100) (Timestamp.fromSamples (1000 : Nat) 44100) 512 =
      (f, some (Timestamp.fromSamples ((1000 + 7 : Nat) : ℚ) 44100, 3), []) ∧ f ≤ 7 ∧ 7 ≤ f + 1 :=
  C26_event_frame_partial (E := Int × Nat) _ 44100 1000 7 512 (by decide) (by decide) (by decide) rfl

/-- C26 is violated: at 48 kHz an event at the timestamp of sample 1 is applied at frame 0. -/
theorem C26_event_frame_violated : ¬ EventsOnTheirSample := by
  intro h
  have h1 := h (Int × Nat) (Timestamp.fromSamples ((0 + 1 : Nat) : ℚ) 48000, 0) 48000 0 1 2 (by decide)
    (by decide) (by decide) rfl
  have h2 : Timestamp.fromSamples ((0 + 1 : Nat) : ℚ) 48000 = 89478 := by
    simp [Timestamp.fromSamples, Timestamp.fromSeconds, Timestamp.roundHalfEven, Timestamp.one]
    norm_num
  have h3 : Timestamp.fromSamples ((0 : Nat) : ℚ) 48000 = 0 := by
    have := Timestamp.fromSamples_zero 48000
    simpa using this
  have h4 : Timestamp.incrementedBySamples 0 2 48000 = 178957 := by
    simp [Timestamp.incrementedBySamples, Timestamp.fromSamples, Timestamp.fromSeconds,
      Timestamp.roundHalfEven, Timestamp.one]
    norm_num
  have h5 : framePosition 0 0 89478 48000 = 0 := by
    unfold framePosition
    rw [asSamples_eq]
    norm_num
  rw [h2, h3] at h1
  have h6 : time ((89478, 0) : Int × Nat) < 178957 := by decide
  unfold nextEvent nextEventBefore at h1
  rw [h4] at h1
  simp only [h6, if_true] at h1
  have h7 : framePosition 0 0 (time ((89478, 0) : Int × Nat)) 48000 = 0 := h5
  rw [h7] at h1
  injection h1 with h1
  cases h1

/-! ## C27 -/

theorem not_lt_decide (a b : Int) : (!decide (a < b)) = decide (b ≤ a) := by
  by_cases h : a < b
  · have : ¬ b ≤ a := by omega
    simp [h, this]
  · have : b ≤ a := by omega
    simp [h, this]

/-- C27: in a block a node processes exactly the pending events that are before the block's end, each
once, in order, each at its own frame; the others stay pending. In particular the subtraction of frame
positions does not underflow. The block has at least one frame and a length of at most 2^33 divided by the
sample rate (178956 frames at 48 kHz). -/
theorem C27_schedule {σ : Type} (render : σ → Nat → Nat → Res σ) (apply : σ → E → Int → Res σ)
    (p : EventProcessor E) (hp : InTimeOrder p.pending) (hsr : 0 < p.sampleRate) (start : Int) (n : Nat)
    (hn : 0 < n) (hlen : n * p.sampleRate ≤ 2 ^ 33) (s : σ) :
    InTimeOrder (receiveEvents p).pending ∧
    loop render apply p.sampleRate start n (receiveEvents p).pending 0 start s =
      (playEvents render apply p.sampleRate start n
        ((receiveEvents p).pending.filter (fun e => decide (time e <
          start + Timestamp.fromSamples (n : ℚ) p.sampleRate))) 0 start s).bind
        (fun s => .ok (s, (receiveEvents p).pending.filter (fun e => decide (
          start + Timestamp.fromSamples (n : ℚ) p.sampleRate ≤ time e)))) := by
  have hs := receive_sorted p hp
  refine ⟨hs, ?_⟩
  have := loop_play render apply hsr start hlen (receiveEvents p).pending 0 start s hn
    (Clock.start start p.sampleRate) (inTimeOrder_time hs) (fun _ _ => Nat.zero_le _)
  unfold Timestamp.incrementedBySamples at this
  rw [this]
  have hc : (receiveEvents p).pending.filter (fun e => !decide (time e <
      start + Timestamp.fromSamples (n : ℚ) p.sampleRate)) =
      (receiveEvents p).pending.filter (fun e => decide (
          start + Timestamp.fromSamples (n : ℚ) p.sampleRate ≤ time e)) := by
    apply List.filter_congr
    intro e _
    exact not_lt_decide _ _
  rw [hc]

/-- The steps of a block as a list of strings, for examples. -/
def traceRender (s : List (Nat × Nat)) (position count : Nat) : Res (List (Nat × Nat)) :=
  .ok (s ++ [(position, count)])

example : ∃ pending, loop traceRender (fun s (_ : Int × Nat) _ => .ok s) 4 0 8
    (receiveEvents ⟨[], [((3221225472 : Int), 0), (1073741824, 1)], 4⟩).pending 0 0 [] =
      (playEvents traceRender (fun s (_ : Int × Nat) _ => .ok s) 4 0 8
        ((receiveEvents ⟨[], [((3221225472 : Int), 0), (1073741824, 1)], 4⟩).pending.filter
          (fun e => decide (time e < 0 + Timestamp.fromSamples (8 : Nat) 4))) 0 0 []).bind
        (fun s => .ok (s, pending)) :=
  ⟨_, (C27_schedule traceRender (fun s (_ : Int × Nat) _ => .ok s)
    ⟨[], [((3221225472 : Int), 0), (1073741824, 1)], 4⟩ List.Pairwise.nil (by decide) 0 8 (by decide)
    (by decide) []).2⟩

/-- C27: the frames at which events are processed are in the block and do not decrease. -/
theorem C27_positions (es : List E) (hs : InTimeOrder es) (sr : Nat) (hsr : 0 < sr) (start : Int) (n : Nat)
    (hn : 0 < n) (he : ∀ e ∈ es, time e < start + Timestamp.fromSamples (n : ℚ) sr) :
    (es.map (fun e => frameOf start (time e) sr)).Pairwise (· ≤ ·) ∧
    ∀ e ∈ es, frameOf start (time e) sr < n :=
  ⟨List.pairwise_map.mpr ((inTimeOrder_time hs).imp (fun h => frameOf_mono sr h)),
    fun e h => frameOf_lt hsr hn (he e h)⟩

example : frameOf 0 (time ((1073741824, 0) : Int × Nat)) 4 < 8 :=
  (C27_positions [((1073741824 : Int), 0)] (List.pairwise_singleton _ _) 4 (by decide) 0 8 (by decide) (by
    intro e h
    rw [List.mem_singleton] at h
    subst h
    have : Timestamp.fromSamples ((8 : Nat) : ℚ) 4 = 8589934592 := by
      simp [Timestamp.fromSamples, Timestamp.fromSeconds, Timestamp.roundHalfEven, Timestamp.one]
      norm_num
    rw [this]
    decide)).2 ((1073741824 : Int), 0) List.mem_cons_self

/-- A block of a history: the events sent since the last one, the time and number of frames. -/
structure EventBlock (E : Type) where
  sent : List E
  start : Int
  frames : Nat

/-- Block after block: receive the events, then the loop. -/
def runBlocks {σ : Type} (render : σ → Nat → Nat → Res σ) (apply : σ → E → Int → Res σ) (sr : Nat) :
    List E → List (EventBlock E) → σ → Res (σ × List E)
  | pending, [], s => .ok (s, pending)
  | pending, b :: bs, s =>
    (loop render apply sr b.start b.frames (receiveEvents ⟨pending, b.sent, sr⟩).pending 0 b.start s).bind
      (fun r => runBlocks render apply sr r.2 bs r.1)

theorem playEvents_ok {σ : Type} {render : σ → Nat → Nat → Res σ} {apply : σ → E → Int → Res σ}
    (hr : ∀ s p n, ∃ s', render s p n = .ok s') (ha : ∀ s e t, ∃ s', apply s e t = .ok s') (sr : Nat)
    (start : Int) (n : Nat) (es : List E) : ∀ (pos : Nat) (cur : Int) (s : σ),
    ∃ s', playEvents render apply sr start n es pos cur s = .ok s' := by
  induction es with
  | nil => intro pos cur s; exact hr _ _ _
  | cons e es ih =>
    intro pos cur s
    simp only [playEvents]
    obtain ⟨s1, h1⟩ := hr s pos (frameOf start (time e) sr - pos)
    obtain ⟨s2, h2⟩ := ha s1 e
      (cur + Timestamp.fromSamples ((frameOf start (time e) sr - pos : Nat) : ℚ) sr)
    rw [h1]
    simp only [Except.bind]
    rw [h2]
    exact ih _ _ _

/-- C27: a node whose processing of frames and reactions to events always return completes every block;
the loop over events itself never fails. -/
theorem C27_returns {σ : Type} (render : σ → Nat → Nat → Res σ) (apply : σ → E → Int → Res σ)
    (hr : ∀ s p n, ∃ s', render s p n = .ok s') (ha : ∀ s e t, ∃ s', apply s e t = .ok s') (sr : Nat)
    (hsr : 0 < sr) (bs : List (EventBlock E)) (hb : ∀ b ∈ bs, b.frames * sr ≤ 2 ^ 33) (s : σ) :
    ∃ r, runBlocks render apply sr [] bs s = .ok r := by
  have key : ∀ (bs : List (EventBlock E)) (pend : List E) (x : σ),
      (∀ b ∈ bs, b.frames * sr ≤ 2 ^ 33) → InTimeOrder pend →
      ∃ r, runBlocks render apply sr pend bs x = .ok r := by
    intro bs
    induction bs with
    | nil => intro pend x _ _; exact ⟨_, rfl⟩
    | cons b bs ih =>
      intro pend x hb hs
      have h2 := hb b List.mem_cons_self
      rw [runBlocks]
      rcases Nat.eq_zero_or_pos b.frames with h0 | h1
      · rw [loop, if_neg (by omega)]
        exact ih _ _ (fun c hc => hb c (List.mem_cons_of_mem _ hc)) (receive_sorted _ hs)
      · obtain ⟨g1, g2⟩ := C27_schedule render apply ⟨pend, b.sent, sr⟩ hs hsr b.start b.frames h1 h2 x
        simp only at g2
        rw [g2]
        obtain ⟨y, hy⟩ := playEvents_ok hr ha sr b.start b.frames
          ((receiveEvents ⟨pend, b.sent, sr⟩).pending.filter (fun e => decide (time e <
          b.start + Timestamp.fromSamples (b.frames : ℚ) sr))) 0 b.start x
        rw [hy]
        exact ih _ _ (fun c hc => hb c (List.mem_cons_of_mem _ hc)) (g1.filter _)
  exact key bs [] s hb List.Pairwise.nil

example : ∃ r, runBlocks traceRender (fun s (_ : Int × Nat) _ => .ok s) 48000 []
    [⟨[(89478, 0), (5, 1)], 0, 512⟩, ⟨[], 45813000, 512⟩] [] = .ok r :=
  C27_returns _ _ (fun _ _ _ => ⟨_, rfl⟩) (fun _ _ _ => ⟨_, rfl⟩) 48000 (by decide) _ (by
    intro b hb
    simp at hb
    rcases hb with rfl | rfl <;> norm_num) []

/-- A node that also writes down the events it reacts to. -/
def logApply {σ : Type} (apply : σ → E → Int → Res σ) (s : σ × List E) (e : E) (t : Int) :
    Res (σ × List E) := (apply s.1 e t).bind (fun x => .ok (x, s.2 ++ [e]))

/-- Frames do not count as events. -/
def logRender {σ : Type} (render : σ → Nat → Nat → Res σ) (s : σ × List E) (p n : Nat) :
    Res (σ × List E) := (render s.1 p n).bind (fun x => .ok (x, s.2))

theorem playEvents_log {σ : Type} (render : σ → Nat → Nat → Res σ) (apply : σ → E → Int → Res σ) (sr : Nat)
    (start : Int) (n : Nat) (es : List E) : ∀ (pos : Nat) (cur : Int) (s s' : σ × List E),
    playEvents (logRender render) (logApply apply) sr start n es pos cur s = .ok s' →
    s'.2 = s.2 ++ es := by
  induction es with
  | nil =>
    intro pos cur s s' h
    simp only [playEvents, logRender] at h
    cases hr : render s.1 pos (n - pos) with
    | error f => rw [hr] at h; cases h
    | ok x => rw [hr] at h; cases h; simp
  | cons e es ih =>
    intro pos cur s s' h
    simp only [playEvents, logRender] at h
    cases hr : render s.1 pos (frameOf start (time e) sr - pos) with
    | error f => rw [hr] at h; cases h
    | ok x =>
      rw [hr] at h
      simp only [Except.bind, logApply] at h
      cases ha : apply x e (cur + Timestamp.fromSamples ((frameOf start (time e) sr - pos : Nat) : ℚ) sr) with
      | error f => rw [ha] at h; cases h
      | ok y =>
        rw [ha] at h
        have := ih _ _ _ _ h
        rw [this]
        simp

theorem filter_split_perm (p q : E → Bool) (h : ∀ e, q e = !p e) (es : List E) :
    (es.filter p ++ es.filter q).Perm es := by
  have : es.filter q = es.filter (fun e => !p e) := List.filter_congr (fun e _ => h e)
  rw [this]
  exact List.filter_append_perm p es

/-- C27: over any number of blocks every event sent is processed exactly once or still pending, if none
of them clears the queue. -/
theorem C27_exactly_once {σ : Type} (render : σ → Nat → Nat → Res σ) (apply : σ → E → Int → Res σ)
    (sr : Nat) (hsr : 0 < sr) (bs : List (EventBlock E))
    (hb : ∀ b ∈ bs, 0 < b.frames ∧ b.frames * sr ≤ 2 ^ 33 ∧ ∀ e ∈ b.sent, clearsQueue e = false)
    (s : σ) (s' : σ) (log pending : List E)
    (h : runBlocks (logRender render) (logApply apply) sr [] bs (s, []) = .ok ((s', log), pending)) :
    (log ++ pending).Perm (bs.flatMap (·.sent)) := by
  have key : ∀ (bs : List (EventBlock E)) (pend : List E) (x x' : σ × List E) (pend' : List E),
      (∀ b ∈ bs, 0 < b.frames ∧ b.frames * sr ≤ 2 ^ 33 ∧ ∀ e ∈ b.sent, clearsQueue e = false) →
      InTimeOrder pend → runBlocks (logRender render) (logApply apply) sr pend bs x = .ok (x', pend') →
      (x'.2 ++ pend').Perm (x.2 ++ pend ++ bs.flatMap (·.sent)) := by
    intro bs
    induction bs with
    | nil =>
      intro pend x x' pend' _ _ h
      simp only [runBlocks] at h
      cases h
      simp
    | cons b bs ih =>
      intro pend x x' pend' hb hs h
      obtain ⟨h1, h2, h3⟩ := hb b List.mem_cons_self
      rw [runBlocks] at h
      obtain ⟨g1, g2⟩ := C27_schedule (logRender render) (logApply apply) ⟨pend, b.sent, sr⟩ hs hsr b.start
        b.frames h1 h2 x
      simp only at g2
      rw [g2] at h
      cases hp : playEvents (logRender render) (logApply apply) sr b.start b.frames
          ((receiveEvents ⟨pend, b.sent, sr⟩).pending.filter (fun e => decide (time e <
          b.start + Timestamp.fromSamples (b.frames : ℚ) sr))) 0 b.start x with
      | error f => rw [hp] at h; cases h
      | ok y =>
        rw [hp] at h
        simp only [Except.bind] at h
        have hlog := playEvents_log render apply sr b.start b.frames _ _ _ _ _ hp
        have := ih _ _ _ _ (fun c hc => hb c (List.mem_cons_of_mem _ hc)) (g1.filter _) h
        refine this.trans ?_
        rw [hlog, List.flatMap_cons, ← List.append_assoc (x.2 ++ pend)]
        refine List.Perm.append_right _ ?_
        rw [List.append_assoc, List.append_assoc]
        refine List.Perm.append_left _ ?_
        have hperm : (receiveEvents ⟨pend, b.sent, sr⟩).pending.Perm (pend ++ b.sent) := by
          unfold receiveEvents
          split
          · rename_i hc
            have hc : b.sent = [] := hc
            rw [hc]; simp
          · refine (List.mergeSort_perm _ _).trans ?_
            have := foldl_push b.sent h3 pend
            exact List.Perm.of_eq this
        exact (filter_split_perm _ _ (fun e => (not_lt_decide _ _).symm) _).trans hperm
  have := key bs [] (s, []) (s', log) pending hb List.Pairwise.nil h
  simpa using this

example : ∃ log pending, runBlocks (logRender traceRender) (logApply (fun s (_ : Int × Nat) _ => .ok s)) 48000
    [] [⟨[(89478, 0), (5, 1)], 0, 512⟩] ([], []) = .ok (log, pending) ∧
      (log.2 ++ pending).Perm [(89478, 0), (5, 1)] := by
  obtain ⟨⟨⟨s', log⟩, pending⟩, h⟩ := C27_returns (logRender traceRender)
    (logApply (fun s (_ : Int × Nat) _ => .ok s)) (fun _ _ _ => ⟨_, rfl⟩) (fun _ _ _ => ⟨_, rfl⟩) 48000
    (by decide) [⟨[(89478, 0), (5, 1)], 0, 512⟩] (by intro b hb; simp at hb; subst hb; norm_num) ([], [])
  refine ⟨_, _, h, ?_⟩
  have := C27_exactly_once traceRender (fun s (_ : Int × Nat) _ => .ok s) 48000 (by decide)
    [⟨[(89478, 0), (5, 1)], 0, 512⟩] (by
      intro b hb; simp at hb; subst hb; refine ⟨by norm_num, by norm_num, fun _ _ => rfl⟩) [] s' log pending h
  simpa using this

end EventProcessor
end Rawdio
