import Verif.Lemmas.AdsrSchedule
import Verif.Lemmas.RecorderSpec
import Verif.Spec.RecorderNode

/-! # The times of a recorder in a session -/

namespace Rawdio

/-- What happens to a recorder. -/
def recorderActions {S : Type} [Zero S] (ch : Nat) : List (ChainEvent RecorderRequest) → (Nat → Nat → S) →
    List (RecorderAction S)
  | [], _ => []
  | .change _ r :: es, x => r.action :: recorderActions ch es x
  | .block t n :: es, x => .block ⟨ch, n, clip ch n x⟩ t :: recorderActions ch es (later n x)

namespace RecorderSchedule

variable {S : Type} {sr : Nat}

/-! ## The queue -/

theorem enqueue_perm (w : RecordRequest) (l : List RecordRequest) : (enqueue w l).Perm (w :: l) := by
  induction l with
  | nil => exact List.Perm.refl _
  | cons q qs ih =>
    unfold enqueue
    split
    · exact (List.Perm.cons q ih).trans (List.Perm.swap w q qs)
    · exact List.Perm.refl _

/-- The queue with the frames before each request was sent. -/
def insert (w : Nat × RecordRequest) : List (Nat × RecordRequest) → List (Nat × RecordRequest)
  | [] => [w]
  | q :: qs => if q.2.time ≤ w.2.time then q :: insert w qs else w :: q :: qs

theorem insert_map (w : Nat × RecordRequest) (l : List (Nat × RecordRequest)) :
    (insert w l).map Prod.snd = enqueue w.2 (l.map Prod.snd) := by
  induction l with
  | nil => rfl
  | cons q qs ih =>
    simp only [insert, List.map_cons, enqueue]
    split
    · rw [List.map_cons, ih]
    · rfl

theorem mem_insert {w x : Nat × RecordRequest} {l : List (Nat × RecordRequest)} :
    x ∈ insert w l ↔ x = w ∨ x ∈ l := by
  induction l with
  | nil => simp [insert]
  | cons q qs ih =>
    unfold insert
    split
    · simp only [List.mem_cons, ih]
      tauto
    · simp only [List.mem_cons]

theorem insert_sorted {w : Nat × RecordRequest} {l : List (Nat × RecordRequest)}
    (h : l.Pairwise fun a b => a.2.time ≤ b.2.time) : (insert w l).Pairwise fun a b => a.2.time ≤ b.2.time := by
  induction l with
  | nil => exact List.pairwise_singleton _ _
  | cons q qs ih =>
    obtain ⟨h1, h2⟩ := List.pairwise_cons.mp h
    unfold insert
    split
    · rename_i hq
      refine List.pairwise_cons.mpr ⟨?_, ih h2⟩
      intro x hx
      rcases mem_insert.mp hx with rfl | hx
      · exact hq
      · exact h1 x hx
    · rename_i hq
      refine List.pairwise_cons.mpr ⟨?_, h⟩
      intro x hx
      rcases List.mem_cons.mp hx with rfl | hx
      · omega
      · have := h1 x hx
        omega

theorem insert_filter (t : Int) {w : Nat × RecordRequest} {l : List (Nat × RecordRequest)}
    (h : l.Pairwise fun a b => a.2.time ≤ b.2.time) :
    (insert w l).filter (fun x => x.2.time = t) = (l ++ [w]).filter fun x => x.2.time = t := by
  induction l with
  | nil => rfl
  | cons q qs ih =>
    obtain ⟨h1, h2⟩ := List.pairwise_cons.mp h
    unfold insert
    split
    · rw [List.filter_cons, ih h2, List.cons_append, List.filter_cons]
    · rename_i hq
      by_cases hw : w.2.time = t
      · have : (q :: qs).filter (fun x => decide (x.2.time = t)) = [] := by
          rw [List.filter_eq_nil_iff]
          intro x hx
          have : q.2.time ≤ x.2.time := by
            rcases List.mem_cons.mp hx with rfl | hx
            · exact le_refl _
            · exact h1 x hx
          simp
          omega
        rw [List.filter_append, this, List.filter_cons, this, List.nil_append]
        simp [hw]
      · rw [List.filter_append, List.filter_cons]
        simp [hw]

/-! ## Which frames are recorded -/

theorem recordedAt_before {b : Bool} {l l' : List (Nat × Bool)} {f : Nat} (h : ∀ x ∈ l', f < x.1) :
    recordedAt b (l ++ l') f = recordedAt b l f := by
  unfold recordedAt
  rw [List.filter_append, (List.filter_eq_nil_iff (l := l')).mpr (by
    intro x hx
    have := h x hx
    simp
    omega), List.append_nil]

theorem recordedAt_after {b : Bool} {l l' : List (Nat × Bool)} {f : Nat} (h : ∀ x ∈ l, x.1 ≤ f) :
    recordedAt b (l ++ l') f = recordedAt ((l.getLast?.map Prod.snd).getD b) l' f := by
  unfold recordedAt
  rw [List.filter_append, (List.filter_eq_self (l := l)).mpr (by
    intro x hx
    have := h x hx
    simp
    omega), List.getLast?_append]
  cases (l'.filter fun r => decide (r.1 ≤ f)).getLast? <;> simp

theorem recordedAt_shift (b : Bool) (l : List (Nat × Bool)) (F f : Nat) :
    recordedAt b (l.map fun x => (F + x.1, x.2)) (F + f) = recordedAt b l f := by
  unfold recordedAt
  have : ((l.map fun x => (F + x.1, x.2)).filter fun r => decide (r.1 ≤ F + f)) =
      (l.filter fun r => decide (r.1 ≤ f)).map fun x => (F + x.1, x.2) := by
    rw [List.filter_map]
    congr 1
    apply List.filter_congr
    intro x _
    simp
  rw [this, List.getLast?_map, Option.map_map]
  rfl

/-! ## The schedule -/

/-- The requests to start or to stop, with the frames before. -/
def sentFrom : Nat → List (ChainEvent RecorderRequest) → List (Nat × RecordRequest)
  | _, [] => []
  | F, .change _ r :: es => (r.asks.map fun q => (F, q)).toList ++ sentFrom F es
  | F, .block _ n :: es => sentFrom (F + n) es

theorem sentFrom_le (es : List (ChainEvent RecorderRequest)) : ∀ F, ∀ x ∈ sentFrom F es, F ≤ x.1 := by
  induction es with
  | nil => intro F x hx; cases hx
  | cons ev es ih =>
    intro F x hx
    cases ev with
    | change i r =>
      rw [sentFrom, List.mem_append] at hx
      rcases hx with hx | hx
      · cases hr : r.asks with
        | none => simp [hr] at hx
        | some q => simp [hr] at hx; subst hx; exact le_refl _
      · exact ih F x hx
    | block t n =>
      have := ih (F + n) x hx
      omega

/-- A request that has been waiting. -/
def Waits (sr F : Nat) (x : Nat × RecordRequest) : Prop :=
  x.1 ≤ F ∧ (x.1 = F ∨ (F : ℚ) / sr * 2 ^ 32 ≤ x.2.time + 3 / 2)

theorem at_frame (hsr : 0 < sr) {F : Nat} {t : Int} (ht : |(t : ℚ) - F / sr * 2 ^ 32| ≤ 1) {x : Nat × RecordRequest}
    (hx : Waits sr F x) : AtFrame sr x.1 x.2.time (F + frameOf t x.2.time sr) :=
  AdsrSchedule.at_frame (x := (x.1, ⟨0, x.2.time, .noteOn⟩)) hsr ht hx

theorem sorted_order (F : Nat) (t : Int) {l : List (Nat × RecordRequest)}
    (hl : l.Pairwise fun a b => a.2.time ≤ b.2.time) :
    (l.map fun x => (F + frameOf t x.2.time sr, x)).Pairwise fun x y => x.1 ≤ y.1 ∧ (y.2.1 ≤ x.1 →
      x.2.2.time ≤ y.2.2.time) := by
  rw [List.pairwise_map]
  refine hl.imp ?_
  intro a b hab
  have : frameOf t a.2.time sr ≤ frameOf t b.2.time sr := EventProcessor.frameOf_mono sr hab
  dsimp only
  omega

theorem total_block {C : Type} (t : Int) (n : Nat) (es : List (ChainEvent C)) :
    ChainEvent.total (.block t n :: es) = n + ChainEvent.total es := by
  simp [ChainEvent.total, ChainEvent.frames]

theorem total_change {C : Type} (i : Id) (c : C) (es : List (ChainEvent C)) :
    ChainEvent.total (.change i c :: es) = ChainEvent.total es := by
  simp [ChainEvent.total, ChainEvent.frames]

/-- Whether a recorder is on after some events, and what it has recorded. -/
def Follows [Zero S] (sr ch F : Nat) (q : Recorded S) (schedule : List (Nat × Nat × RecordRequest))
    (es : List (ChainEvent RecorderRequest)) (x : Nat → Nat → S) : Prop :=
  (q.run sr ch (recorderActions ch es x)).recording = (if ChainEvent.total es = 0 then q.recording
    else recordedAt q.recording (schedule.map fun x => (x.1, x.2.2.start)) (F + ChainEvent.total es - 1)) ∧
  (q.run sr ch (recorderActions ch es x)).frames = q.frames ++ ((List.range (ChainEvent.total es)).filter fun f =>
    recordedAt q.recording (schedule.map fun x => (x.1, x.2.2.start)) (F + f)).map
      fun f => (List.range ch).map fun c => x c f

/-- What is recorded, from the requests `waiting` on. -/
theorem scheduled [Zero S] (hsr : 0 < sr) (ch : Nat) (es : List (ChainEvent RecorderRequest)) :
    ∀ (F : Nat) (waiting : List (Nat × RecordRequest)) (q : Recorded S) (x : Nat → Nat → S),
    AdsrSchedule.Paced sr F es → q.waiting = waiting.map Prod.snd →
    waiting.Pairwise (fun a b => a.2.time ≤ b.2.time) → (∀ w ∈ waiting, Waits sr F w) →
    ∃ schedule, RecordScheduled sr (waiting ++ sentFrom F es) schedule ∧ (∀ y ∈ schedule, F ≤ y.1) ∧
      ∀ es1 es2, es = es1 ++ es2 → Follows sr ch F q schedule es1 x := by
  induction es with
  | nil =>
    intro F waiting q x _ _ hs hw
    have ht : |((Timestamp.fromSamples (F : ℚ) sr : Int) : ℚ) - F / sr * 2 ^ 32| ≤ 1 := by
      have := Sampler.fromSamples_near F sr
      exact this.trans (by norm_num)
    refine ⟨waiting.map fun x => (F + frameOf (Timestamp.fromSamples (F : ℚ) sr) x.2.time sr, x),
      ⟨?_, ?_, sorted_order F _ hs⟩, ?_, ?_⟩
    · intro t
      rw [List.map_map]
      simp [sentFrom, Function.comp_def]
    · intro y hy
      obtain ⟨z, hz, rfl⟩ := List.mem_map.mp hy
      exact at_frame hsr ht (hw z hz)
    · intro y hy
      obtain ⟨z, hz, rfl⟩ := List.mem_map.mp hy
      exact Nat.le_add_right _ _
    · intro es1 es2 h
      obtain ⟨rfl, rfl⟩ := List.append_eq_nil_iff.mp h.symm
      simp [Follows, recorderActions, Recorded.run, ChainEvent.total]
  | cons ev es ih =>
    intro F waiting q x hp hq hs hw
    have hnil : ∀ sch, Follows sr ch F q sch [] x := by
      intro sch
      simp [Follows, recorderActions, Recorded.run, ChainEvent.total]
    cases ev with
    | change i r =>
      have hstep : ∃ waiting' : List (Nat × RecordRequest), (q.step sr ch (r.action : RecorderAction S)).waiting = waiting'.map Prod.snd ∧
          waiting'.Pairwise (fun a b => a.2.time ≤ b.2.time) ∧ (∀ w ∈ waiting', Waits sr F w) ∧
          (∀ t, waiting'.filter (fun x => x.2.time = t) =
            (waiting ++ (r.asks.map fun q => (F, q)).toList).filter fun x => x.2.time = t) ∧
          (q.step sr ch (r.action : RecorderAction S)).recording = q.recording ∧
          (q.step sr ch (r.action : RecorderAction S)).frames = q.frames := by
        have hasks : ∀ w : RecordRequest, r.asks = some w →
            (q.step sr ch (r.action : RecorderAction S)) = { q with waiting := enqueue w q.waiting } := by
          intro w hw
          cases r <;> simp only [RecorderRequest.asks, Option.some.injEq, reduceCtorEq] at hw <;> subst hw <;> rfl
        cases hr : r.asks with
        | none =>
          have : q.step sr ch (r.action : RecorderAction S) = q := by
            cases r <;> simp only [RecorderRequest.asks, reduceCtorEq] at hr <;> rfl
          rw [this]
          exact ⟨waiting, hq, hs, hw, by simp, rfl, rfl⟩
        | some w =>
          rw [hasks w hr]
          refine ⟨insert (F, w) waiting, ?_, insert_sorted hs, ?_, ?_, rfl, rfl⟩
          · rw [insert_map, ← hq]
          · intro y hy
            rcases mem_insert.mp hy with rfl | hy
            · exact ⟨le_refl _, .inl rfl⟩
            · exact hw y hy
          · intro t
            rw [insert_filter t hs]
            rfl
      obtain ⟨waiting', k1, k2, k3, k4, k5, k6⟩ := hstep
      obtain ⟨sch, h1, h2, h3⟩ := ih F waiting' _ x hp k1 k2 k3
      refine ⟨sch, ⟨?_, h1.frames, h1.order⟩, h2, ?_⟩
      · intro t
        rw [h1.all t, List.filter_append, k4 t, ← List.filter_append, List.append_assoc]
        rfl
      · intro es1 es2 he
        cases es1 with
        | nil => exact hnil _
        | cons e es1 =>
          rw [List.cons_append] at he
          injection he with he1 he2
          subst he1
          have := h3 es1 es2 he2
          simp only [Follows, k5, k6] at this
          simp only [Follows, total_change]
          exact this
    | block t n =>
      obtain ⟨hn, ht, hp'⟩ := hp
      obtain ⟨fin, hfin⟩ : ∃ fin, fin = t + Timestamp.fromSamples (n : ℚ) sr := ⟨_, rfl⟩
      obtain ⟨due, hdue⟩ : ∃ due, due = waiting.filter fun x => decide (x.2.time < fin) := ⟨_, rfl⟩
      obtain ⟨rest, hrest⟩ : ∃ rest, rest = waiting.filter fun x => decide (fin ≤ x.2.time) := ⟨_, rfl⟩
      have hsplit : ∀ u, (due ++ rest).filter (fun x => x.2.time = u) = waiting.filter fun x => x.2.time = u := by
        intro u
        rw [List.filter_append, hdue, hrest, List.filter_filter, List.filter_filter]
        by_cases hu : u < fin
        · rw [(List.filter_eq_nil_iff (p := fun a : Nat × RecordRequest =>
              decide (a.2.time = u) && decide (fin ≤ a.2.time))).mpr (by
              intro a _; simp; omega), List.append_nil]
          apply List.filter_congr
          intro a _
          by_cases ha : a.2.time = u
          · simp [ha, hu]
          · simp [ha]
        · rw [(List.filter_eq_nil_iff (p := fun a : Nat × RecordRequest =>
              decide (a.2.time = u) && decide (a.2.time < fin))).mpr (by
              intro a _; simp; omega), List.nil_append]
          apply List.filter_congr
          intro a _
          by_cases ha : a.2.time = u
          · have : fin ≤ u := by omega
            simp [ha, this]
          · simp [ha]
      have hlt : ∀ x ∈ due, frameOf t x.2.time sr < n := by
        intro x hx
        rw [hdue, List.mem_filter] at hx
        have hx' := of_decide_eq_true hx.2
        exact EventProcessor.frameOf_lt hsr hn (by rw [hfin] at hx'; exact hx')
      obtain ⟨q', hq'⟩ : ∃ q', q' = q.block sr ch (⟨ch, n, clip ch n x⟩ : Grid S) t := ⟨_, rfl⟩
      have hdq : q.waiting.filter (fun w => decide (w.time < fin)) = due.map Prod.snd := by
        rw [hq, hdue, List.filter_map]
        rfl
      have hq1 : q'.waiting = rest.map Prod.snd := by
        rw [hq', hrest, hfin]
        simp only [Recorded.block, hq]
        rw [List.filter_map]
        rfl
      have hq2 : q'.recording = (due.getLast?.map fun x => x.2.start).getD q.recording := by
        rw [hq']
        simp only [Recorded.block]
        rw [← hfin, hdq, List.getLast?_map, Option.map_map]
        rfl
      have hq3 : q'.frames = q.frames ++ ((List.range n).filter
          (recordedAt q.recording (due.map fun x => (frameOf t x.2.time sr, x.2.start)))).map
            fun f => (List.range ch).map fun c => x c f := by
        rw [hq']
        simp only [Recorded.block]
        rw [← hfin, hdq, List.map_map]
        congr 1
        apply List.map_congr_left
        intro f hf
        have hf : f < n := List.mem_range.mp (List.mem_filter.mp hf).1
        apply List.map_congr_left
        intro c hc
        have hc : c < ch := List.mem_range.mp hc
        simp [clip, hc, hf]
      obtain ⟨sch, h1, h2, h3⟩ := ih (F + n) rest q' (later n x) hp' hq1 (by rw [hrest]; exact hs.filter _) (by
        intro x hx
        rw [hrest, List.mem_filter] at hx
        obtain ⟨hx, hx'⟩ := hx
        have hx' := of_decide_eq_true hx'
        have := hw x hx
        refine ⟨by have := this.1; omega, Or.inr ?_⟩
        have hn' := Sampler.fromSamples_near n sr
        rw [abs_le] at hn' ht
        have hle : ((fin : Int) : ℚ) ≤ x.2.time := by exact_mod_cast hx'
        rw [hfin] at hle
        push_cast at hle ⊢
        rw [add_div, add_mul]
        linarith [hn'.1, ht.1])
      obtain ⟨ds, hds⟩ : ∃ ds : List (Nat × Bool), ds = due.map fun x => (frameOf t x.2.time sr, x.2.start) := ⟨_, rfl⟩
      rw [← hds] at hq3
      have hmap : (((due.map fun x => (F + frameOf t x.2.time sr, x)) ++ sch).map fun x => (x.1, x.2.2.start)) =
          (ds.map fun x => (F + x.1, x.2)) ++ sch.map fun x => (x.1, x.2.2.start) := by
        rw [List.map_append, List.map_map, hds, List.map_map]
        rfl
      have hds' : ∀ y ∈ ds, y.1 < n := by
        intro y hy
        rw [hds] at hy
        obtain ⟨z, hz, rfl⟩ := List.mem_map.mp hy
        exact hlt z hz
      have hq2' : q'.recording = (((ds.map fun x => (F + x.1, x.2)).getLast?.map Prod.snd).getD q.recording) := by
        rw [hq2, hds, List.map_map, List.getLast?_map, Option.map_map]
        rfl
      have hin : ∀ f < n, recordedAt q.recording ((ds.map fun x => (F + x.1, x.2)) ++
          sch.map fun x => (x.1, x.2.2.start)) (F + f) = recordedAt q.recording ds f := by
        intro f hf
        rw [recordedAt_before, recordedAt_shift]
        intro y hy
        obtain ⟨z, hz, rfl⟩ := List.mem_map.mp hy
        have := h2 z hz
        dsimp only
        omega
      have hout : ∀ f, recordedAt q.recording ((ds.map fun x => (F + x.1, x.2)) ++
          sch.map fun x => (x.1, x.2.2.start)) (F + n + f) =
          recordedAt q'.recording (sch.map fun x => (x.1, x.2.2.start)) (F + n + f) := by
        intro f
        rw [recordedAt_after, ← hq2']
        intro y hy
        obtain ⟨z, hz, rfl⟩ := List.mem_map.mp hy
        have := hds' z hz
        dsimp only
        omega
      refine ⟨(due.map fun x => (F + frameOf t x.2.time sr, x)) ++ sch, ⟨?_, ?_, ?_⟩, ?_, ?_⟩
      · intro u
        rw [List.map_append, List.map_map]
        have : (due.map ((fun x : Nat × Nat × RecordRequest => x.2) ∘ fun x => (F + frameOf t x.2.time sr, x))) = due := by
          simp [Function.comp_def]
        rw [this, List.filter_append, h1.all u, List.filter_append, ← List.append_assoc, ← List.filter_append, hsplit u,
          ← List.filter_append]
        rfl
      · intro x hx
        rw [List.mem_append] at hx
        rcases hx with hx | hx
        · obtain ⟨y, hy, rfl⟩ := List.mem_map.mp hx
          rw [hdue, List.mem_filter] at hy
          exact at_frame hsr ht (hw y hy.1)
        · exact h1.frames x hx
      · rw [List.pairwise_append]
        refine ⟨sorted_order F t (by rw [hdue]; exact hs.filter _), h1.order, ?_⟩
        intro x hx y hy
        obtain ⟨z, hz, rfl⟩ := List.mem_map.mp hx
        have g1 := hlt z hz
        have g2 := h2 y hy
        dsimp only
        refine ⟨by omega, fun hy' => ?_⟩
        have hm : y.2 ∈ rest ++ sentFrom (F + n) es := by
          have : y.2 ∈ (sch.map fun x => x.2).filter (fun x => decide (x.2.time = y.2.2.time)) :=
            List.mem_filter.mpr ⟨List.mem_map_of_mem hy, by simp⟩
          rw [h1.all] at this
          exact (List.mem_filter.mp this).1
        rw [List.mem_append] at hm
        rcases hm with hm | hm
        · rw [hrest, List.mem_filter] at hm
          rw [hdue, List.mem_filter] at hz
          have k1 := of_decide_eq_true hm.2
          have k2 := of_decide_eq_true hz.2
          omega
        · have := sentFrom_le es _ _ hm
          omega
      · intro x hx
        rw [List.mem_append] at hx
        rcases hx with hx | hx
        · obtain ⟨y, hy, rfl⟩ := List.mem_map.mp hx
          exact Nat.le_add_right _ _
        · have := h2 x hx
          omega
      · intro es1 es2 he
        cases es1 with
        | nil => exact hnil _
        | cons e es1 =>
          rw [List.cons_append] at he
          injection he with he1 he2
          subst he1
          obtain ⟨g1, g2⟩ := h3 es1 es2 he2
          have hrun : q.run sr ch (recorderActions ch (.block t n :: es1) x) =
              q'.run sr ch (recorderActions ch es1 (later n x)) := by
            rw [hq']
            rfl
          refine ⟨?_, ?_⟩
          · rw [hrun, g1, total_block, if_neg (show n + ChainEvent.total es1 ≠ 0 by omega), hmap]
            split
            · rename_i h0
              rw [h0, Nat.add_zero, Nat.add_sub_assoc (by omega : 1 ≤ n), recordedAt_before, hq2', recordedAt,
                List.filter_eq_self.mpr]
              · intro y hy
                obtain ⟨z, hz, rfl⟩ := List.mem_map.mp hy
                have := hds' z hz
                simp
                omega
              · intro y hy
                obtain ⟨z, hz, rfl⟩ := List.mem_map.mp hy
                have := h2 z hz
                dsimp only
                omega
            · rename_i h0
              have e : F + (n + ChainEvent.total es1) - 1 = F + n + (ChainEvent.total es1 - 1) := by omega
              rw [e, hout, Nat.add_sub_assoc (by omega : 1 ≤ ChainEvent.total es1)]
          · rw [hrun, g2, total_block, hmap, hq3, List.append_assoc, List.range_add, List.filter_append, List.map_append]
            congr 2
            · congr 1
              apply List.filter_congr
              intro f hf
              rw [hin f (List.mem_range.mp hf)]
            · rw [List.filter_map, List.map_map]
              have : (List.range (ChainEvent.total es1)).filter ((fun f => recordedAt q.recording
                  ((ds.map fun x => (F + x.1, x.2)) ++ sch.map fun x => (x.1, x.2.2.start)) (F + f)) ∘ fun f => n + f) =
                  (List.range (ChainEvent.total es1)).filter fun f => recordedAt q'.recording
                    (sch.map fun x => (x.1, x.2.2.start)) (F + n + f) := by
                apply List.filter_congr
                intro f _
                simp only [Function.comp_apply]
                rw [← Nat.add_assoc, hout]
              rw [this]
              rfl

end RecorderSchedule
end Rawdio
