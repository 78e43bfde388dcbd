import Mathlib.Data.List.Basic
import Mathlib.Data.List.Sort
import Verif.Lemmas.EventLoop
import Verif.Lemmas.PoolBuf
import Verif.Spec.Recorder

/-! # Lemmas about the recorder's processor -/

namespace Rawdio

variable {S : Type}

namespace Grid

theorem framesIn_append (g : Grid S) (ch a n m : Nat) :
    g.framesIn ch a (n + m) = g.framesIn ch a n ++ g.framesIn ch (a + n) m := by
  unfold framesIn
  rw [← List.map_append, List.range'_append_1]

theorem framesIn_zero (g : Grid S) (ch a : Nat) : g.framesIn ch a 0 = [] := rfl

theorem framesIn_congr {g h : Grid S} {ch a b n : Nat}
    (e : ∀ c i, c < ch → i < n → g.val c (a + i) = h.val c (b + i)) :
    g.framesIn ch a n = h.framesIn ch b n := by
  unfold framesIn
  rw [List.range'_eq_map_range, List.range'_eq_map_range, List.map_map, List.map_map]
  apply List.map_congr_left
  intro i hi
  simp only [Function.comp_apply]
  apply List.map_congr_left
  intro c hc
  exact e c i (List.mem_range.mp hc) (List.mem_range.mp hi)

/-- Copying frames behind those already there. -/
theorem copyFrom_frames {dst src dst' : Grid S} {sf df ch n : Nat}
    (h : dst.copyFrom src sf df ch n = .ok dst') :
    dst'.channels = dst.channels ∧ dst'.frames = dst.frames ∧
      dst'.framesIn ch 0 (df + n) = dst.framesIn ch 0 df ++ src.framesIn ch sf n := by
  unfold copyFrom at h
  split at h
  · rename_i h0
    injection h with h
    subst h
    subst h0
    refine ⟨rfl, rfl, ?_⟩
    rw [framesIn_append]
    congr 1
    exact framesIn_congr (fun c i hc _ => by omega)
  · split at h
    · injection h with h
      subst h
      refine ⟨rfl, rfl, ?_⟩
      rw [framesIn_append]
      congr 1
      · apply framesIn_congr
        intro c i hc hi
        simp only
        rw [if_neg (by omega)]
      · apply framesIn_congr
        intro c i hc hi
        simp only
        rw [if_pos (by omega)]
        congr 1
        omega
    · cases h

end Grid

namespace RecorderNotification

/-- The frames a notification brings. -/
def frames (ch : Nat) : RecorderNotification S → List (List S)
  | .start => []
  | .data b n => b.framesIn ch 0 n
  | .stop => []

/-- What a notification does to the flag shown to the user. -/
def flag (shown : Bool) : RecorderNotification S → Bool
  | .start => true
  | .data _ _ => shown
  | .stop => false

/-- A notification has a buffer of the recorder. -/
def Ok (ch : Nat) : RecorderNotification S → Prop
  | .data b n => b.channels = ch ∧ b.frames = recorderBufferSize ∧ n ≤ recorderBufferSize
  | _ => True

/-- Whether a notification is a buffer. -/
def isData : RecorderNotification S → Bool
  | .data _ _ => true
  | _ => false

end RecorderNotification

/-- A buffer of the recorder. -/
def Grid.OfRecorder (ch : Nat) (g : Grid S) : Prop := g.channels = ch ∧ g.frames = recorderBufferSize

namespace RecorderEvent

/-- Events of the recorder other than timed stops have time zero; the buffers that come back are the
recorder's. -/
def Ok (ch : Nat) (e : RecorderEvent S) : Prop :=
  match e.eventType with
  | .start => e.time = 0
  | .stop => True
  | .returnBuffer b => e.time = 0 ∧ b.OfRecorder ch

/-- The request an event stands for. -/
def request (e : RecorderEvent S) : Option RecordRequest :=
  match e.eventType with
  | .start => some ⟨e.time, true⟩
  | .stop => some ⟨e.time, false⟩
  | .returnBuffer _ => none

end RecorderEvent

namespace RecorderProcessor

/-- The frames recorded but not collected. -/
def stream (ch : Nat) (p : RecorderProcessor S) : List (List S) :=
  p.notifications.flatMap (RecorderNotification.frames ch) ++ p.current.framesIn ch 0 p.position

/-- The buffers are as they should be. -/
structure Shape (ch : Nat) (p : RecorderProcessor S) : Prop where
  current : p.current.OfRecorder ch
  position : p.position < recorderBufferSize
  pool : ∀ b ∈ p.pool, b.OfRecorder ch
  notifications : ∀ n ∈ p.notifications, n.Ok ch

/-- The number of buffers on their way to the control thread. -/
def sent (p : RecorderProcessor S) : Nat := p.notifications.countP RecorderNotification.isData

/-- What the control thread will show as recording, given what it shows now. -/
def willShow (p : RecorderProcessor S) (shown : Bool) : Bool :=
  p.notifications.foldl RecorderNotification.flag shown

theorem notify_ok {p p' : RecorderProcessor S} {n : RecorderNotification S} (h : p.notify n = .ok p') :
    p.notifications.length < recorderNotificationCapacity ∧
    p' = { p with notifications := p.notifications ++ [n] } := by
  unfold notify at h
  split at h
  · rename_i h1
    injection h with h
    exact ⟨h1, h.symm⟩
  · cases h

theorem nextBuffer_ok {p p' : RecorderProcessor S} (h : p.nextBuffer = .ok p') :
    ∃ next, p.pool.getLast? = some next ∧
      p.notifications.length < recorderNotificationCapacity ∧
      p' = { p with pool := p.pool.dropLast, current := next, position := 0,
                    notifications := p.notifications ++ [.data p.current p.position] } := by
  unfold nextBuffer at h
  split at h
  · cases h
  · rename_i next hn
    obtain ⟨h1, h2⟩ := notify_ok h
    exact ⟨next, hn, h1, h2⟩

theorem nextBuffer_spec {ch : Nat} {p p' : RecorderProcessor S} (h : p.nextBuffer = .ok p')
    (h1 : p.current.OfRecorder ch) (h2 : p.position ≤ recorderBufferSize)
    (h3 : ∀ b ∈ p.pool, b.OfRecorder ch) (h4 : ∀ n ∈ p.notifications, n.Ok ch) :
    p'.Shape ch ∧ p'.stream ch = p.stream ch ∧ p'.position = 0 ∧ p'.recording = p.recording ∧
      p'.events = p.events ∧ p'.sampleRate = p.sampleRate ∧
      ∀ b, p'.willShow b = p.willShow b := by
  obtain ⟨next, hn, -, rfl⟩ := nextBuffer_ok h
  refine ⟨⟨h3 _ (List.mem_of_getLast? hn), by simp [recorderBufferSize], ?_, ?_⟩, ?_, rfl, rfl, rfl, rfl, ?_⟩
  · intro b hb; exact h3 b (List.dropLast_subset _ hb)
  · intro n hn
    rcases List.mem_append.mp hn with hn | hn
    · exact h4 n hn
    · rw [List.mem_singleton] at hn
      subst hn
      exact ⟨h1.1, h1.2, h2⟩
  · simp [stream, RecorderNotification.frames, Grid.framesIn_zero]
  · intro b
    simp [willShow, RecorderNotification.flag]

/-- What copying does, from the beginning of a block. -/
theorem copyLoop_spec {ch : Nat} (input : Grid S) (n : Nat) :
    ∀ (fuel position : Nat) (p p' : RecorderProcessor S), p.Shape ch → position ≤ n →
    copyLoop input 0 n ch fuel position p = .ok p' →
    p'.Shape ch ∧ p'.stream ch = p.stream ch ++ input.framesIn ch position (n - position) ∧
      p'.recording = p.recording ∧ p'.events = p.events ∧ p'.sampleRate = p.sampleRate ∧
      ∀ b, p'.willShow b = p.willShow b := by
  intro fuel
  induction fuel with
  | zero =>
    intro position p p' hs hp h
    unfold copyLoop at h
    split at h
    · cases h
    · injection h with h
      subst h
      have : n - position = 0 := by omega
      rw [this, Grid.framesIn_zero, List.append_nil]
      exact ⟨hs, rfl, rfl, rfl, rfl, fun _ => rfl⟩
  | succ fuel ih =>
    intro position p p' hs hp h
    unfold copyLoop at h
    split at h
    · rename_i hlt
      split at h
      · cases h
      · rename_i hno
        simp only at h
        obtain ⟨current, h1, h2⟩ := bind_ok h
        obtain ⟨k, hk⟩ : ∃ k, k = min (n - position) (p.current.frames - p.position) := ⟨_, rfl⟩
        rw [← hk] at h1 h2
        obtain ⟨c1, c2, c3⟩ := Grid.copyFrom_frames h1
        obtain ⟨q, h3, h4⟩ := bind_ok h2
        have hcf := hs.current.2
        have hcur : current.OfRecorder ch := ⟨c1.trans hs.current.1, c2.trans hs.current.2⟩
        have hpos : p.position + k ≤ recorderBufferSize := by
          have := hs.position; omega
        have hst : ({ p with current := current, position := p.position + k } : RecorderProcessor S).stream ch =
            p.stream ch ++ input.framesIn ch position k := by
          simp only [stream]
          rw [c3, List.append_assoc]
        have hq : q.Shape ch ∧ q.stream ch = p.stream ch ++ input.framesIn ch position k ∧
            q.recording = p.recording ∧ q.events = p.events ∧ q.sampleRate = p.sampleRate ∧
            ∀ b, q.willShow b = p.willShow b := by
          unfold nextIfFull at h3
          split at h3
          · obtain ⟨a1, a2, -, a3, a4, a5, a6⟩ := nextBuffer_spec (ch := ch) h3 hcur hpos hs.pool
              hs.notifications
            exact ⟨a1, a2.trans hst, a3, a4, a5, a6⟩
          · rename_i hlt2
            injection h3 with h3
            subst h3
            refine ⟨⟨hcur, ?_, hs.pool, hs.notifications⟩, hst, rfl, rfl, rfl, fun _ => rfl⟩
            simp only at hlt2 ⊢
            rw [hcur.2] at hlt2
            omega
        obtain ⟨q1, q2, q3, q4, q5, q6⟩ := hq
        obtain ⟨r1, r2, r3, r4, r5, r6⟩ := ih (position + k) q p' q1 (by omega) h4
        refine ⟨r1, ?_, r3.trans q3, r4.trans q4, r5.trans q5, fun b => (r6 b).trans (q6 b)⟩
        rw [r2, q2, List.append_assoc, ← Grid.framesIn_append]
        congr 2
        omega
    · injection h with h
      subst h
      have : n - position = 0 := by omega
      rw [this, Grid.framesIn_zero, List.append_nil]
      exact ⟨hs, rfl, rfl, rfl, rfl, fun _ => rfl⟩

theorem frameOf_zero {start : Int} (h : 0 ≤ start) (sr : Nat) : frameOf start 0 sr = 0 := by
  unfold frameOf
  apply Int.toNat_eq_zero.mpr
  have : ((0 - start : Int) : ℚ) * sr / 2 ^ 32 ≤ 0 := by
    apply div_nonpos_of_nonpos_of_nonneg _ (by norm_num)
    apply mul_nonpos_of_nonpos_of_nonneg _ (Nat.cast_nonneg _)
    exact_mod_cast (by omega : 0 - start ≤ 0)
  have h2 := Int.floor_mono this
  simpa using h2

/-- The frames recorded from `position` on. -/
def keptFrom (input : Grid S) (ch : Nat) (before : Bool) (reqs : List (Nat × Bool)) (position n : Nat) :
    List (List S) :=
  ((List.range' position (n - position)).filter (recordedAt before reqs)).map
    (fun f => (List.range ch).map (fun c => input.val c f))

theorem keptFrom_nil (input : Grid S) (ch : Nat) (before : Bool) (position n : Nat) :
    keptFrom input ch before [] position n =
      if before then input.framesIn ch position (n - position) else [] := by
  have : recordedAt before [] = fun _ => before := by
    funext f
    simp [recordedAt]
  unfold keptFrom
  rw [this]
  cases before <;> simp [Grid.framesIn]

theorem recordedAt_before {before : Bool} {reqs : List (Nat × Bool)} {f : Nat}
    (h : ∀ r ∈ reqs, f < r.1) : recordedAt before reqs f = before := by
  unfold recordedAt
  have : reqs.filter (fun r => decide (r.1 ≤ f)) = [] := by
    rw [List.filter_eq_nil_iff]
    intro r hr
    have := h r hr
    simp
    omega
  rw [this]
  rfl

theorem recordedAt_cons {before b : Bool} {k : Nat} {reqs : List (Nat × Bool)} {f : Nat} (h : k ≤ f) :
    recordedAt before ((k, b) :: reqs) f = recordedAt b reqs f := by
  unfold recordedAt
  rw [List.filter_cons_of_pos (by simpa using h), List.getLast?_cons]
  cases (reqs.filter (fun r => decide (r.1 ≤ f))).getLast? <;> rfl

theorem keptFrom_split (input : Grid S) (ch : Nat) (before : Bool) (reqs : List (Nat × Bool))
    {position k n : Nat} (h1 : position ≤ k) (h2 : k ≤ n) (hr : ∀ r ∈ reqs, k ≤ r.1) :
    keptFrom input ch before reqs position n =
      (if before then input.framesIn ch position (k - position) else []) ++
        keptFrom input ch before reqs k n := by
  have e : List.range' position (n - position) =
      List.range' position (k - position) ++ List.range' k (n - k) := by
    have := List.range'_append_1 (s := position) (m := k - position) (n := n - k)
    rw [show position + (k - position) = k by omega] at this
    rw [this]
    congr 1
    omega
  unfold keptFrom
  rw [e, List.filter_append, List.map_append]
  congr 1
  have h : (List.range' position (k - position)).filter (recordedAt before reqs) =
      (List.range' position (k - position)).filter (fun _ => before) := by
    apply List.filter_congr
    intro f hf
    rw [List.mem_range'_1] at hf
    apply recordedAt_before
    intro r hr2
    have := hr r hr2
    omega
  rw [h]
  cases before <;> simp [Grid.framesIn]

theorem keptFrom_cons (input : Grid S) (ch : Nat) (before b : Bool) (reqs : List (Nat × Bool))
    {position k n : Nat} (h1 : position ≤ k) (h2 : k ≤ n) (hr : ∀ r ∈ reqs, k ≤ r.1) :
    keptFrom input ch before ((k, b) :: reqs) position n =
      (if before then input.framesIn ch position (k - position) else []) ++
        keptFrom input ch b reqs k n := by
  rw [keptFrom_split input ch before _ h1 h2 (by
    intro r hr2
    rcases List.mem_cons.mp hr2 with rfl | hr2
    · exact le_refl _
    · exact hr r hr2)]
  congr 1
  unfold keptFrom
  congr 1
  apply List.filter_congr
  intro f hf
  rw [List.mem_range'_1] at hf
  exact recordedAt_cons hf.1

/-- The requests of events with their frames. -/
def requestsAt (start : Int) (sr : Nat) (es : List (RecorderEvent S)) : List (Nat × Bool) :=
  (es.filterMap RecorderEvent.request).map (fun q => (frameOf start q.time sr, q.start))

theorem requestsAt_cons (start : Int) (sr : Nat) (e : RecorderEvent S) (es : List (RecorderEvent S)) :
    requestsAt start sr (e :: es) = (match e.request with
      | none => []
      | some q => [(frameOf start q.time sr, q.start)]) ++ requestsAt start sr es := by
  unfold requestsAt
  rw [List.filterMap_cons]
  cases e.request <;> rfl

theorem mem_requestsAt {start : Int} {sr : Nat} {es : List (RecorderEvent S)} {r : Nat × Bool}
    (h : r ∈ requestsAt start sr es) : ∃ e ∈ es, r.1 = frameOf start e.time sr := by
  unfold requestsAt at h
  rw [List.mem_map] at h
  obtain ⟨q, hq, rfl⟩ := h
  rw [List.mem_filterMap] at hq
  obtain ⟨e, he, hq⟩ := hq
  refine ⟨e, he, ?_⟩
  unfold RecorderEvent.request at hq
  split at hq
  · injection hq with hq; subst hq; rfl
  · injection hq with hq; subst hq; rfl
  · cases hq

/-- What is on after the events of a block. -/
def onAfter (before : Bool) (es : List (RecorderEvent S)) : Bool :=
  ((es.filterMap RecorderEvent.request).getLast?.map RecordRequest.start).getD before

theorem onAfter_cons (before : Bool) (e : RecorderEvent S) (es : List (RecorderEvent S)) :
    onAfter before (e :: es) = onAfter ((e.request.map RecordRequest.start).getD before) es := by
  unfold onAfter
  rw [List.filterMap_cons]
  cases e.request with
  | none => rfl
  | some q =>
    simp only [List.getLast?_cons, Option.map_some, Option.getD_some]
    cases (es.filterMap RecorderEvent.request).getLast? <;> rfl

/-- Processing an event changes nothing but what is on. -/
theorem processEvent_spec [Zero S] {ch : Nat} {p p' : RecorderProcessor S} {e : RecorderEvent S} {t : Int}
    (hs : p.Shape ch) (he : e.Ok ch) (h : p.processEvent e t = .ok p') :
    p'.Shape ch ∧ p'.stream ch = p.stream ch ∧
      p'.recording = (e.request.map RecordRequest.start).getD p.recording ∧
      p'.events = p.events ∧ p'.sampleRate = p.sampleRate ∧
      ∀ b, p.willShow b = p.recording → p'.willShow b = p'.recording := by
  unfold processEvent at h
  unfold RecorderEvent.request
  unfold RecorderEvent.Ok at he
  cases hE : e.eventType with
  | start =>
    rw [hE] at h he
    simp only at h he ⊢
    unfold start at h
    split at h
    · rename_i hr
      injection h with h
      subst h
      exact ⟨hs, rfl, hr, rfl, rfl, fun _ h => h⟩
    · obtain ⟨-, rfl⟩ := notify_ok h
      refine ⟨⟨hs.current, hs.position, hs.pool, ?_⟩, ?_, rfl, rfl, rfl, ?_⟩
      · intro n hn
        rcases List.mem_append.mp hn with hn | hn
        · exact hs.notifications n hn
        · rw [List.mem_singleton] at hn; subst hn; trivial
      · simp [stream, RecorderNotification.frames]
      · intro b _
        simp [willShow, RecorderNotification.flag]
  | stop =>
    rw [hE] at h he
    simp only at h he ⊢
    unfold stop at h
    split at h
    · obtain ⟨q, h1, h2⟩ := bind_ok h
      obtain ⟨a1, a2, -, a3, a4, a5, a6⟩ := nextBuffer_spec (ch := ch) h1 hs.current hs.position.le hs.pool
        hs.notifications
      obtain ⟨-, rfl⟩ := notify_ok h2
      refine ⟨⟨a1.current, a1.position, a1.pool, ?_⟩, ?_, rfl, a4, a5, ?_⟩
      · intro n hn
        rcases List.mem_append.mp hn with hn | hn
        · exact a1.notifications n hn
        · rw [List.mem_singleton] at hn; subst hn; trivial
      · rw [← a2]
        simp [stream, RecorderNotification.frames]
      · intro b _
        simp [willShow, RecorderNotification.flag]
    · rename_i hr
      injection h with h
      subst h
      exact ⟨hs, rfl, by simpa using hr, rfl, rfl, fun _ h => h⟩
  | returnBuffer b =>
    rw [hE] at h he
    simp only at h he ⊢
    injection h with h
    subst h
    refine ⟨⟨hs.current, hs.position, ?_, hs.notifications⟩, rfl, rfl, rfl, rfl, fun _ h => h⟩
    intro g hg
    rcases List.mem_append.mp hg with hg | hg
    · exact hs.pool g hg
    · rw [List.mem_singleton] at hg
      subst hg
      exact ⟨he.2.1, he.2.2⟩

/-- Processing a part of a block. -/
theorem process_spec {ch fuel : Nat} {input : Grid S} {p p' : RecorderProcessor S} {position k : Nat}
    (hs : p.Shape ch) (hch : ch ≤ input.channels) (hpos : position = 0 ∨ p.recording = false)
    (h : process fuel input p position k = .ok p') :
    p'.Shape ch ∧ p'.stream ch = p.stream ch ++
        (if p.recording then input.framesIn ch position k else []) ∧
      p'.recording = p.recording ∧ p'.events = p.events ∧ p'.sampleRate = p.sampleRate ∧
      ∀ b, p'.willShow b = p.willShow b := by
  unfold process at h
  split at h
  · rename_i hr
    rw [if_pos hr]
    rcases hpos with rfl | hpos
    · rw [hs.current.1, Nat.min_eq_right hch] at h
      exact copyLoop_spec input k fuel 0 p p' hs (Nat.zero_le _) h
    · rw [hr] at hpos; cases hpos
  · rename_i hr
    injection h with h
    subst h
    rw [if_neg hr, List.append_nil]
    exact ⟨hs, rfl, rfl, rfl, rfl, fun _ => rfl⟩

/-- What the events of a block do. -/
theorem playEvents_spec [Zero S] {ch fuel sr n : Nat} {input : Grid S} {start : Int} (h0 : 0 ≤ start)
    (hch : ch ≤ input.channels) :
    ∀ (es : List (RecorderEvent S)) (position : Nat) (cur : Int) (p p' : RecorderProcessor S),
    p.Shape ch → (∀ e ∈ es, e.Ok ch) → (position = 0 ∨ p.recording = false) → position ≤ n →
    es.Pairwise (fun a b => a.time ≤ b.time) →
    (∀ e ∈ es, position ≤ frameOf start e.time sr ∧ frameOf start e.time sr < n) →
    playEvents (process fuel input) processEvent sr start n es position cur p = .ok p' →
    p'.Shape ch ∧
      p'.stream ch = p.stream ch ++ keptFrom input ch p.recording (requestsAt start sr es) position n ∧
      p'.recording = onAfter p.recording es ∧ p'.events = p.events ∧ p'.sampleRate = p.sampleRate ∧
      ∀ b, p.willShow b = p.recording → p'.willShow b = p'.recording := by
  intro es
  induction es with
  | nil =>
    intro position cur p p' hs he hpos hpn hsort hb h
    simp only [playEvents] at h
    obtain ⟨a1, a2, a3, a4, a5, a6⟩ := process_spec hs hch hpos h
    refine ⟨a1, ?_, a3, a4, a5, fun b hb => by rw [a6, hb, a3]⟩
    rw [a2]
    exact congrArg _ (keptFrom_nil input ch p.recording position n).symm
  | cons e es ih =>
    intro position cur p p' hs he hpos hpn hsort hb h
    obtain ⟨hs1, hs2⟩ := List.pairwise_cons.mp hsort
    obtain ⟨b1, b2⟩ := hb e List.mem_cons_self
    have heo := he e List.mem_cons_self
    simp only [playEvents] at h
    obtain ⟨q, h1, h2⟩ := bind_ok h
    obtain ⟨r, h3, h4⟩ := bind_ok h2
    change process fuel input p position (frameOf start e.time sr - position) = .ok q at h1
    change playEvents _ _ sr start n es (frameOf start e.time sr) _ r = .ok p' at h4
    obtain ⟨a1, a2, a3, a4, a5, a6⟩ := process_spec hs hch hpos h1
    obtain ⟨c1, c2, c3, c4, c5, c6⟩ := processEvent_spec a1 heo h3
    have hpos' : frameOf start e.time sr = 0 ∨ r.recording = false := by
      unfold RecorderEvent.Ok at heo
      unfold RecorderEvent.request at c3
      cases hE : e.eventType with
      | start => rw [hE] at heo; left; rw [heo]; exact frameOf_zero h0 sr
      | stop => rw [hE] at c3; right; exact c3
      | returnBuffer b => rw [hE] at heo; left; rw [heo.1]; exact frameOf_zero h0 sr
    obtain ⟨d1, d2, d3, d4, d5, d6⟩ := ih (frameOf start e.time sr) _ r p' c1
      (fun x hx => he x (List.mem_cons_of_mem _ hx)) hpos' b2.le hs2
      (fun x hx => ⟨EventProcessor.frameOf_mono sr (hs1 x hx), (hb x (List.mem_cons_of_mem _ hx)).2⟩) h4
    have hrest : ∀ x ∈ requestsAt start sr es, frameOf start e.time sr ≤ x.1 := by
      intro x hx
      obtain ⟨y, hy, hxy⟩ := mem_requestsAt hx
      rw [hxy]
      exact EventProcessor.frameOf_mono sr (hs1 y hy)
    refine ⟨d1, ?_, ?_, (d4.trans c4).trans a4, (d5.trans c5).trans a5,
      fun b hb => d6 b (c6 b (by rw [a6, a3, hb]))⟩
    · rw [d2, c2, a2, List.append_assoc]
      congr 1
      rw [requestsAt_cons, c3, a3]
      have hreq : ∀ q, e.request = some q → q.time = e.time := by
        intro q hq
        unfold RecorderEvent.request at hq
        split at hq
        · injection hq with hq; subst hq; rfl
        · injection hq with hq; subst hq; rfl
        · cases hq
      cases hq : e.request with
      | none =>
        simp only [List.nil_append, Option.map_none, Option.getD_none]
        exact (keptFrom_split input ch p.recording _ b1 b2.le hrest).symm
      | some q =>
        simp only [List.singleton_append, Option.map_some, Option.getD_some]
        rw [hreq q hq]
        exact (keptFrom_cons input ch p.recording q.start _ b1 b2.le hrest).symm
    · rw [d3, onAfter_cons, c3, a3]

end RecorderProcessor
end Rawdio
