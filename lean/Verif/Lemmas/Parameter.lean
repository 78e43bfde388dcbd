import Mathlib.Tactic.Linarith
import Mathlib.Data.List.Perm.Basic
import Verif.Spec.Parameter

/-! Helper lemmas about parameters. -/

namespace Rawdio

variable {V : Type}

namespace RealtimeParameter

open ParameterChange

/-- One frame, with the value kept in the parameter. -/
def step (A : Arith V) (sr : Nat) (p : RealtimeParameter V) (t : Int) : RealtimeParameter V :=
  { (valueAtTime A p t sr p.value).2 with value := (valueAtTime A p t sr p.value).1 }

/-- Frame after frame. -/
def steps (A : Arith V) (sr : Nat) : RealtimeParameter V → List Int → List V × RealtimeParameter V
  | p, [] => ([], p)
  | p, t :: ts => ((step A sr p t).value :: (steps A sr (step A sr p t) ts).1,
      (steps A sr (step A sr p t) ts).2)

theorem begin_value (A : Arith V) (p : RealtimeParameter V) (t : Int) (sr : Nat) (v x : V) :
    begin A { p with value := x } t sr v = { begin A p t sr v with value := x } := by
  unfold begin
  simp only
  split
  · rfl
  · split <;> split <;> rfl

theorem valueAtTime_value (A : Arith V) (p : RealtimeParameter V) (t : Int) (sr : Nat) (v x : V) :
    valueAtTime A { p with value := x } t sr v =
      ((valueAtTime A p t sr v).1, { (valueAtTime A p t sr v).2 with value := x }) := by
  unfold valueAtTime
  simp only [begin_value]
  rfl

theorem steps_append (A : Arith V) (sr : Nat) (ts us : List Int) (p : RealtimeParameter V) :
    steps A sr p (ts ++ us) = ((steps A sr p ts).1 ++ (steps A sr (steps A sr p ts).2 us).1,
      (steps A sr (steps A sr p ts).2 us).2) := by
  induction ts generalizing p with
  | nil => rfl
  | cons t ts ih => simp only [List.cons_append, steps, ih]

theorem steps_length (A : Arith V) (sr : Nat) (ts : List Int) (p : RealtimeParameter V) :
    (steps A sr p ts).1.length = ts.length := by
  induction ts generalizing p with
  | nil => rfl
  | cons t ts ih => simp only [steps, List.length_cons, ih]

theorem fold_steps (A : Arith V) (sr : Nat) (time : Int) (is : List Nat) :
    ∀ (p : RealtimeParameter V) (v : V) (out : List V),
    ({ (is.foldl (frame A time sr) (p, v, out)).1 with
        value := (is.foldl (frame A time sr) (p, v, out)).2.1 } : RealtimeParameter V) =
      (steps A sr { p with value := v }
        (is.map (fun i => Timestamp.incrementedBySamples time i sr))).2 ∧
    (is.foldl (frame A time sr) (p, v, out)).2.2 = out ++
      (steps A sr { p with value := v }
        (is.map (fun i => Timestamp.incrementedBySamples time i sr))).1 := by
  induction is with
  | nil => intro p v out; simp [steps]
  | cons i is ih =>
    intro p v out
    rw [List.foldl_cons, frame]
    simp only
    obtain ⟨h1, h2⟩ := ih (valueAtTime A p (Timestamp.incrementedBySamples time i sr) sr v).2
      (valueAtTime A p (Timestamp.incrementedBySamples time i sr) sr v).1
      (out ++ [(valueAtTime A p (Timestamp.incrementedBySamples time i sr) sr v).1])
    have h3 : step A sr { p with value := v } (Timestamp.incrementedBySamples time i sr) =
        { (valueAtTime A p (Timestamp.incrementedBySamples time i sr) sr v).2 with
          value := (valueAtTime A p (Timestamp.incrementedBySamples time i sr) sr v).1 } := by
      unfold step
      rw [valueAtTime_value]
    rw [List.map_cons, steps, h3]
    refine ⟨h1, ?_⟩
    rw [h2, List.append_assoc]
    rfl

/-- A block that is not constant, frame by frame. -/
theorem process_steps (A : Arith V) (p : RealtimeParameter V) (time : Int) (n sr : Nat)
    (h : isStatic A p = false) :
    process A p time n sr = steps A sr p
      ((List.range n).map (fun i => Timestamp.incrementedBySamples time i sr)) := by
  unfold process
  rw [if_neg (by rw [h]; simp)]
  obtain ⟨h1, h2⟩ := fold_steps A sr time (List.range n) p p.value []
  exact Prod.ext h2 h1

theorem steps_fixed (A : Arith V) (sr : Nat) (p : RealtimeParameter V) (ts : List Int)
    (h : ∀ t ∈ ts, step A sr p t = p) :
    steps A sr p ts = (List.replicate ts.length p.value, p) := by
  induction ts with
  | nil => rfl
  | cons t ts ih =>
    have h1 := h t List.mem_cons_self
    have h2 := ih (fun u hu => h u (List.mem_cons_of_mem _ hu))
    simp only [steps, h1, h2, List.length_cons, List.replicate_succ]

theorem frameTimes_cons (sr : Nat) (b : Int × Nat) (bs : List (Int × Nat)) :
    frameTimes sr (b :: bs) = (List.range b.2).map
      (fun i => Timestamp.incrementedBySamples b.1 i sr) ++ frameTimes sr bs := by
  rw [frameTimes, List.flatMap_cons]
  rfl

/-- Blocks are rendered frame by frame, if an invariant excludes that the constant-value fast path
leaves out anything. -/
theorem processAll_steps (A : Arith V) (sr : Nat) (I : RealtimeParameter V → List Int → Prop)
    (hstep : ∀ p t ts, I p (t :: ts) → I (step A sr p t) ts)
    (hstat : ∀ p ts, I p ts → isStatic A p = true → ∀ t ∈ ts, step A sr p t = p)
    (bs : List (Int × Nat)) : ∀ p, I p (frameTimes sr bs) →
    processAll A sr p bs = steps A sr p (frameTimes sr bs) ∧
    I (processAll A sr p bs).2 [] := by
  have hsteps : ∀ ts us p, I p (ts ++ us) → I (steps A sr p ts).2 us := by
    intro ts
    induction ts with
    | nil => intro us p h; exact h
    | cons t ts ih => intro us p h; exact ih us _ (hstep p t _ h)
  induction bs with
  | nil => intro p h; exact ⟨rfl, h⟩
  | cons b bs ih =>
    intro p h
    rw [frameTimes_cons] at h ⊢
    have key : process A p b.1 b.2 sr = steps A sr p ((List.range b.2).map
        (fun i => Timestamp.incrementedBySamples b.1 i sr)) := by
      cases hs : isStatic A p with
      | false => exact process_steps A p b.1 b.2 sr hs
      | true =>
        rw [steps_fixed A sr p _ (fun t ht => hstat p _ h hs t (List.mem_append_left _ ht))]
        unfold process
        rw [if_pos hs, List.length_map, List.length_range]
    obtain ⟨h1, h2⟩ := ih _ (hsteps _ _ p h)
    rw [steps_append]
    simp only [processAll, key]
    exact ⟨by rw [h1], h2⟩

/-! ## Taking up changes -/

theorem begin_changes (A : Arith V) (p : RealtimeParameter V) (t : Int) (sr : Nat) (v : V) :
    (begin A p t sr v).changes =
      match p.changes with
      | [] => []
      | c :: rest => if c.startTime ≤ t then rest else c :: rest := by
  unfold begin
  split
  · rename_i h; simp [h]
  · rename_i c rest h
    simp only [h]
    unfold startTime
    split <;> rename_i hm <;> simp only [hm] <;> split <;> simp_all

theorem begin_current (A : Arith V) (p : RealtimeParameter V) (t : Int) (sr : Nat) (v : V) :
    (begin A p t sr v).current =
      match p.changes with
      | [] => p.current
      | c :: _ => if c.startTime ≤ t then c else p.current := by
  unfold begin
  split
  · rename_i h; simp [h]
  · rename_i c rest h
    simp only [h]
    unfold startTime
    split <;> rename_i hm <;> simp only [hm] <;> split <;> simp_all

theorem step_changes (A : Arith V) (p : RealtimeParameter V) (t : Int) (sr : Nat) :
    (step A sr p t).changes =
      match p.changes with
      | [] => []
      | c :: rest => if c.startTime ≤ t then rest else c :: rest := begin_changes A p t sr p.value

theorem step_current (A : Arith V) (p : RealtimeParameter V) (t : Int) (sr : Nat) :
    (step A sr p t).current =
      match p.changes with
      | [] => p.current
      | c :: _ => if c.startTime ≤ t then c else p.current := begin_current A p t sr p.value

theorem step_value (A : Arith V) (p : RealtimeParameter V) (t : Int) (sr : Nat) :
    (step A sr p t).value =
      if (step A sr p t).current.endTime ≤ t then (step A sr p t).current.value
      else A.add (A.mul p.value (step A sr p t).coefficient) (step A sr p t).increment := rfl

theorem begin_none (A : Arith V) (p : RealtimeParameter V) (t : Int) (sr : Nat) (v : V)
    (h : ∀ c rest, p.changes = c :: rest → t < c.startTime) : begin A p t sr v = p := by
  unfold begin
  split
  · rfl
  · rename_i c rest hc
    have := h c rest hc
    unfold startTime at this
    split <;> rename_i hm <;> simp only [hm] at this <;> rw [if_neg (by omega)]

/-- A frame at which nothing is taken up and the current change is over. -/
theorem step_idle (A : Arith V) (p : RealtimeParameter V) (t : Int) (sr : Nat)
    (h : ∀ c rest, p.changes = c :: rest → t < c.startTime) (he : p.current.endTime ≤ t)
    (hv : p.value = p.current.value) : step A sr p t = p := by
  unfold step valueAtTime
  simp only [begin_none A p t sr p.value h]
  unfold advance
  rw [if_pos he, ← hv]

/-- A frame at which a change is taken up that is already over. -/
theorem step_over (A : Arith V) (p : RealtimeParameter V) (t : Int) (sr : Nat) (c : ParameterChange V)
    (rest : List (ParameterChange V)) (hc : p.changes = c :: rest) (hs : c.startTime ≤ t)
    (he : c.endTime ≤ t) : (step A sr p t).changes = rest ∧ (step A sr p t).current = c ∧
      (step A sr p t).value = c.value := by
  have h1 := step_changes A p t sr
  have h2 := step_current A p t sr
  have h3 := step_value A p t sr
  rw [hc] at h1 h2
  simp only [hs, if_true] at h1 h2
  rw [h2, if_pos he] at h3
  exact ⟨h1, h2, h3⟩

/-- The queue after some frames. -/
theorem steps_changes (A : Arith V) (sr : Nat) (cs : List (ParameterChange V)) (ts : List Int) :
    ∀ (n : Nat) (p : RealtimeParameter V), p.changes = cs.drop n → ts.Pairwise (· ≤ ·) →
    (∀ t ∈ ts, ∀ c ∈ cs.take n, c.startTime ≤ t) →
    (steps A sr p ts).2.changes = cs.drop (taken cs n ts) := by
  induction ts with
  | nil => intro n p h _ _; exact h
  | cons t ts ih =>
    intro n p h hs ht
    obtain ⟨hs1, hs2⟩ := List.pairwise_cons.mp hs
    have hst := step_changes A p t sr
    have hlen : min n cs.length ≤ started cs t := by
      have : (cs.take n) <+: cs.takeWhile (fun c => decide (c.startTime ≤ t)) := by
        have h1 : ∀ (l : List (ParameterChange V)) n,
            (∀ c ∈ l.take n, c.startTime ≤ t) →
            l.take n <+: l.takeWhile (fun c => decide (c.startTime ≤ t)) := by
          intro l
          induction l with
          | nil => intro n _; simp
          | cons a l ihl =>
            intro n hn
            cases n with
            | zero => simp
            | succ n =>
              rw [List.take_succ_cons] at hn ⊢
              rw [List.takeWhile_cons, if_pos (by simpa using hn a List.mem_cons_self)]
              exact (List.prefix_cons_inj a).mpr (ihl n (fun c hc => hn c (List.mem_cons_of_mem _ hc)))
        exact h1 cs n (ht t List.mem_cons_self)
      have := this.length_le
      rw [List.length_take] at this
      exact this
    have hnext : ∀ (l : List (ParameterChange V)) (n : Nat),
        (∀ c ∈ l.take n, c.startTime ≤ t) → ∀ c rest, l.drop n = c :: rest →
        (c.startTime ≤ t ↔ n < started l t) := by
      intro l
      induction l with
      | nil => intro n _ c rest hd; simp at hd
      | cons a l ihl =>
        intro n hn c rest hd
        cases n with
        | zero =>
          rw [List.drop_zero] at hd
          injection hd with h1 h2
          subst h1
          unfold started
          rw [List.takeWhile_cons]
          split
          · rename_i hh; simpa using hh
          · rename_i hh; simpa using hh
        | succ n =>
          rw [List.take_succ_cons] at hn
          rw [List.drop_succ_cons] at hd
          have := ihl n (fun c hc => hn c (List.mem_cons_of_mem _ hc)) c rest hd
          rw [this]
          unfold started
          rw [List.takeWhile_cons, if_pos (by simpa using hn a List.mem_cons_self),
            List.length_cons]
          omega
    rw [steps]
    change (steps A sr (step A sr p t) ts).2.changes = _
    rw [taken]
    have hh := hnext cs n (ht t List.mem_cons_self)
    cases hd : cs.drop n with
    | nil =>
      have hge : cs.length ≤ n := List.drop_eq_nil_iff.mp hd
      have hle : started cs t ≤ cs.length := by
        unfold started; exact (List.takeWhile_prefix _).length_le
      have : max n (min (n + 1) (started cs t)) = n := by omega
      rw [this]
      refine ih n _ ?_ hs2 (fun u hu => ht u (List.mem_cons_of_mem _ hu))
      rw [hst, h, hd]
    | cons c rest =>
      rw [h, hd] at hst
      simp only at hst
      have hlt : n < cs.length := by
        by_contra hcon
        rw [List.drop_eq_nil_iff.mpr (by omega)] at hd
        cases hd
      by_cases hc : c.startTime ≤ t
      · have h1 := (hh c rest hd).mp hc
        have : max n (min (n + 1) (started cs t)) = n + 1 := by omega
        rw [this]
        refine ih (n + 1) _ ?_ hs2 ?_
        · rw [hst, if_pos hc]
          have := congrArg List.tail hd
          rw [List.tail_drop] at this
          exact this.symm
        · intro u hu x hx
          rw [List.take_add_one, List.mem_append] at hx
          rcases hx with hx | hx
          · exact ht u (List.mem_cons_of_mem _ hu) x hx
          · have : cs[n]? = some c := by
              have h0 : (cs.drop n)[0]? = some c := by rw [hd]; rfl
              rwa [List.getElem?_drop, Nat.add_zero] at h0
            rw [this] at hx
            simp at hx
            subst hx
            exact hc.trans (hs1 u hu)
      · have h1 : ¬ n < started cs t := fun h => hc ((hh c rest hd).mpr h)
        have : max n (min (n + 1) (started cs t)) = n := by omega
        rw [this]
        refine ih n _ ?_ hs2 (fun u hu => ht u (List.mem_cons_of_mem _ hu))
        rw [hst, if_neg hc, hd]

/-! ## Requests -/

theorem addChange_perm (p : RealtimeParameter V) (c : ParameterChange V) :
    (p.addChange c).changes.Perm (p.changes ++ [c]) := List.mergeSort_perm _ _

theorem addChange_sorted (p : RealtimeParameter V) (c : ParameterChange V) :
    (p.addChange c).changes.Pairwise (fun a b => a.endTime ≤ b.endTime) := by
  have := List.pairwise_mergeSort (le := fun (a b : ParameterChange V) => decide (a.endTime ≤ b.endTime))
    (by intro a b c; simp; omega) (by intro a b; simp; omega) (p.changes ++ [c])
  exact this.imp (by intro a b h; simpa using h)

theorem addChange_stable (p : RealtimeParameter V) (c : ParameterChange V) (t : Int) :
    (p.addChange c).changes.filter (fun x => decide (x.endTime = t)) =
      (p.changes ++ [c]).filter (fun x => decide (x.endTime = t)) := by
  obtain ⟨l, hl⟩ : ∃ l, l = p.changes ++ [c] := ⟨_, rfl⟩
  unfold addChange
  simp only
  rw [← hl]
  have h1 : (l.filter (fun x => decide (x.endTime = t))).Sublist
      (l.mergeSort (fun a b => decide (a.endTime ≤ b.endTime))) := by
    refine List.sublist_mergeSort (by intro a b c; simp; omega) (by intro a b; simp; omega) ?_
      List.filter_sublist
    rw [List.pairwise_filter]
    refine List.pairwise_of_forall ?_
    intro a b ha hb
    simp at ha hb ⊢
    omega
  have h2 := h1.filter (fun x => decide (x.endTime = t))
  rw [List.filter_filter] at h2
  simp only [Bool.and_self] at h2
  refine (h2.eq_of_length ?_).symm
  exact ((List.mergeSort_perm l _).filter _).length_eq.symm

end RealtimeParameter
end Rawdio
