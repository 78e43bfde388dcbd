import Mathlib.Tactic.FieldSimp
import Mathlib.Tactic.Positivity
import Mathlib.Tactic.NormNum
import Verif.Lemmas.Parameter
import Verif.Lemmas.Timestamp

/-! Helper lemmas about parameters: immediate changes, and linear ramps over the reals. -/

namespace Rawdio

variable {V : Type}

namespace RealtimeParameter

open ParameterChange

/-! ## Immediate changes -/

/-- The states of a parameter with immediate changes only, with the frames to come. -/
structure Settled (p : RealtimeParameter V) (ts : List Int) : Prop where
  imm : ∀ c ∈ p.changes, c.method = .immediate
  sorted : p.changes.Pairwise (fun a b => a.endTime ≤ b.endTime)
  over : ∀ t ∈ ts, p.current.endTime ≤ t
  value : p.value = p.current.value
  order : ts.Pairwise (· ≤ ·)

theorem start_imm {c : ParameterChange V} (h : c.method = .immediate) : c.startTime = c.endTime := by
  unfold startTime; rw [h]

theorem Settled.step {A : Arith V} {sr : Nat} {p : RealtimeParameter V} {t : Int} {ts : List Int}
    (h : Settled p (t :: ts)) : Settled (step A sr p t) ts := by
  obtain ⟨ho1, ho2⟩ := List.pairwise_cons.mp h.order
  cases hc : p.changes with
  | nil =>
    rw [step_idle A p t sr (by intro c rest h'; rw [hc] at h'; cases h') (h.over t List.mem_cons_self)
      h.value]
    exact ⟨h.imm, h.sorted, fun u hu => h.over u (List.mem_cons_of_mem _ hu), h.value, ho2⟩
  | cons c rest =>
    have hi := start_imm (h.imm c (by rw [hc]; exact List.mem_cons_self))
    by_cases hs : c.startTime ≤ t
    · obtain ⟨h1, h2, h3⟩ := step_over A p t sr c rest hc hs (by rw [← hi]; exact hs)
      refine ⟨?_, ?_, ?_, ?_, ho2⟩
      · rw [h1]; intro x hx; exact h.imm x (by rw [hc]; exact List.mem_cons_of_mem _ hx)
      · rw [h1]; have := h.sorted; rw [hc] at this; exact (List.pairwise_cons.mp this).2
      · rw [h2, ← hi]; intro u hu; exact hs.trans (ho1 u hu)
      · rw [h2, h3]
    · rw [step_idle A p t sr (by
        intro c' rest' h'; rw [hc] at h'; injection h' with h1 h2; subst h1; omega)
        (h.over t List.mem_cons_self) h.value]
      exact ⟨h.imm, h.sorted, fun u hu => h.over u (List.mem_cons_of_mem _ hu), h.value, ho2⟩

theorem Settled.static {A : Arith V} {sr : Nat} {p : RealtimeParameter V} {ts : List Int}
    (h : Settled p ts) (hs : isStatic A p = true) : ∀ t ∈ ts, RealtimeParameter.step A sr p t = p := by
  intro t ht
  unfold isStatic at hs
  simp only [Bool.and_eq_true, List.isEmpty_iff] at hs
  exact step_idle A p t sr (by intro c rest h'; rw [hs.2] at h'; cases h') (h.over t ht) h.value

theorem settled_new (A : Arith V) (v : V) (ts : List Int) (h : (0 :: ts).Pairwise (· ≤ ·)) :
    Settled (new A v) ts := by
  obtain ⟨h1, h2⟩ := List.pairwise_cons.mp h
  exact ⟨by intro c hc; (cases hc), List.Pairwise.nil, h1, rfl, h2⟩

theorem processAll_one (A : Arith V) (sr : Nat) (p : RealtimeParameter V) (t : Int) (n : Nat) :
    processAll A sr p [(t, n)] = process A p t n sr := by
  simp [processAll]

theorem frameTimes_append (sr : Nat) (as bs : List (Int × Nat)) :
    frameTimes sr (as ++ bs) = frameTimes sr as ++ frameTimes sr bs := by
  unfold frameTimes; rw [List.flatMap_append]

theorem actAll_settled [LinearOrder V] (A : Arith V) (r : ParameterRange V) (sr : Nat)
    (as : List (ParameterAction V)) : ∀ (p : RealtimeParameter V) (future : List Int),
    ParameterAction.Immediate as →
    Settled p (frameTimes sr (ParameterAction.blocks as) ++ future) →
    Settled (actAll A r sr p as).2 future := by
  induction as with
  | nil => intro p future _ h; exact h
  | cons a as ih =>
    intro p future hi h
    have hi' : ParameterAction.Immediate as := fun v e m hm => hi v e m (List.mem_cons_of_mem _ hm)
    rw [actAll]
    refine ih _ _ hi' ?_
    cases a with
    | request v e m =>
      have hm := hi v e m List.mem_cons_self
      subst hm
      refine ⟨?_, addChange_sorted _ _, h.over, h.value, h.order⟩
      intro c hc
      have := (addChange_perm p _).mem_iff.mp hc
      rw [List.mem_append, List.mem_singleton] at this
      rcases this with this | rfl
      · exact h.imm c this
      · rfl
    | cancel => exact ⟨by intro c hc; (cases hc), List.Pairwise.nil, h.over, h.value, h.order⟩
    | cancelEndingAfter t =>
      exact ⟨fun c hc => h.imm c (List.mem_of_mem_filter hc), h.sorted.filter _, h.over, h.value,
        h.order⟩
    | block t n =>
      have hb : frameTimes sr (ParameterAction.blocks (.block t n :: as)) =
          frameTimes sr [(t, n)] ++ frameTimes sr (ParameterAction.blocks as) :=
        frameTimes_append sr [(t, n)] _
      rw [hb, List.append_assoc] at h
      have := (processAll_steps A sr
        (fun q ts => Settled q (ts ++ (frameTimes sr (ParameterAction.blocks as) ++ future)))
        (fun q t ts hq => hq.step) (fun q ts hq hs t ht => hq.static hs t (List.mem_append_left _ ht))
        [(t, n)] p h).2
      rw [processAll_one] at this
      exact this

/-- Frame by frame, at most one change taken up per frame. -/
theorem steps_immediate (A : Arith V) (sr : Nat) (cs : List (ParameterChange V)) (v0 : V)
    (ts : List Int) : ∀ (n : Nat) (p : RealtimeParameter V), Settled p ts → p.changes = cs.drop n →
    p.value = lastValue v0 (cs.take n) → (∀ t ∈ ts, ∀ c ∈ cs.take n, c.startTime ≤ t) →
    ∀ j, j < ts.length →
      (steps A sr p ts).1[j]? = some (lastValue v0 (cs.take (taken cs n (ts.take (j + 1))))) := by
  have hval : ∀ (n : Nat) (p : RealtimeParameter V) (t : Int), Settled p [t] →
      p.changes = cs.drop n → p.value = lastValue v0 (cs.take n) →
      (∀ c ∈ cs.take n, c.startTime ≤ t) →
      (step A sr p t).changes = cs.drop (taken cs n [t]) ∧
      (step A sr p t).value = lastValue v0 (cs.take (taken cs n [t])) ∧
      (∀ c ∈ cs.take (taken cs n [t]), c.startTime ≤ t) := by
    intro n p t hS hc hv ht
    have h1 := steps_changes A sr cs [t] n p hc (List.pairwise_singleton _ _)
      (by intro u hu; rw [List.mem_singleton] at hu; subst hu; exact ht)
    change (step A sr p t).changes = _ at h1
    refine ⟨h1, ?_⟩
    cases hd : cs.drop n with
    | nil =>
      have hge : cs.length ≤ n := List.drop_eq_nil_iff.mp hd
      have htk : taken cs n [t] = n := by
        have hle : started cs t ≤ cs.length := by
          unfold started; exact (List.takeWhile_prefix _).length_le
        simp only [taken]; omega
      rw [htk]
      refine ⟨?_, ht⟩
      rw [step_idle A p t sr (by intro c rest h'; rw [hc, hd] at h'; cases h')
        (hS.over t List.mem_cons_self) hS.value, hv]
    | cons c rest =>
      have hlt : n < cs.length := by
        by_contra hcon
        rw [List.drop_eq_nil_iff.mpr (by omega)] at hd
        cases hd
      have hcn : cs[n]? = some c := by
        have h0 : (cs.drop n)[0]? = some c := by rw [hd]; rfl
        rwa [List.getElem?_drop, Nat.add_zero] at h0
      have hi := start_imm (hS.imm c (by rw [hc, hd]; exact List.mem_cons_self))
      by_cases hs : c.startTime ≤ t
      · obtain ⟨g1, g2, g3⟩ := step_over A p t sr c rest (by rw [hc, hd]) hs (by rw [← hi]; exact hs)
        have htk : taken cs n [t] = n + 1 := by
          have hlen : cs.drop (n + 1) = rest := by
            have := congrArg List.tail hd
            rw [List.tail_drop] at this
            exact this
          have hm : taken cs n [t] = max n (min (n + 1) (started cs t)) := rfl
          rw [g1, ← hlen] at h1
          by_contra hne
          have hn : taken cs n [t] = n := by omega
          rw [hn, hlen, hd] at h1
          have := congrArg List.length h1
          simp at this
        rw [htk, List.take_add_one, hcn]
        refine ⟨?_, ?_⟩
        · rw [g3]; simp [lastValue]
        · intro x hx
          simp at hx
          rcases hx with hx | rfl
          · exact ht x hx
          · exact hs
      · have hid := step_idle A p t sr (by
          intro c' rest' h'; rw [hc, hd] at h'; injection h' with e1 e2; subst e1; omega)
          (hS.over t List.mem_cons_self) hS.value
        have htk : taken cs n [t] = n := by
          have hm : taken cs n [t] = max n (min (n + 1) (started cs t)) := rfl
          rw [hid, hc] at h1
          by_contra hne
          have hn : taken cs n [t] = n + 1 := by omega
          rw [hn] at h1
          have := congrArg List.length h1
          simp at this
          omega
        rw [htk, hid]
        exact ⟨hv, ht⟩
  induction ts with
  | nil => intro n p _ _ _ _ j hj; exact absurd hj (Nat.not_lt_zero _)
  | cons t ts ih =>
    intro n p hS hc hv ht j hj
    obtain ⟨h1, h2, h3⟩ := hval n p t
      ⟨hS.imm, hS.sorted, by
        intro u hu; rw [List.mem_singleton] at hu; subst hu; exact hS.over _ List.mem_cons_self,
        hS.value, List.pairwise_singleton _ _⟩ hc hv (ht t List.mem_cons_self)
    rw [steps]
    cases j with
    | zero =>
      simp only [List.getElem?_cons_zero, List.take_succ_cons, List.take_zero]
      rw [h2]
    | succ j =>
      simp only [List.getElem?_cons_succ, List.take_succ_cons]
      have := ih (taken cs n [t]) _ hS.step h1 h2 (by
        intro u hu c hc
        exact (h3 c hc).trans ((List.pairwise_cons.mp hS.order).1 u hu)) j (by simpa using hj)
      rw [this]
      rfl

theorem ended_sorted {cs : List (ParameterChange V)} (hi : ∀ c ∈ cs, c.method = .immediate)
    (hs : cs.Pairwise (fun a b => a.endTime ≤ b.endTime)) (t : Int) :
    ended cs t = cs.take (started cs t) := by
  induction cs with
  | nil => rfl
  | cons c cs ih =>
    obtain ⟨h1, h2⟩ := List.pairwise_cons.mp hs
    have ih := ih (fun x hx => hi x (List.mem_cons_of_mem _ hx)) h2
    have hc := start_imm (hi c List.mem_cons_self)
    unfold ended started at *
    rw [List.filter_cons, List.takeWhile_cons, hc]
    by_cases h : c.endTime ≤ t
    · rw [if_pos (by simpa using h), if_pos (by simpa using h), List.length_cons,
        List.take_succ_cons, ih]
    · rw [if_neg (by simpa using h), if_neg (by simpa using h)]
      rw [List.length_nil, List.take_zero]
      rw [List.filter_eq_nil_iff]
      intro x hx
      have := h1 x hx
      simp
      omega

theorem started_le (cs : List (ParameterChange V)) (t : Int) : started cs t ≤ cs.length := by
  unfold started; exact (List.takeWhile_prefix _).length_le

theorem started_mono (cs : List (ParameterChange V)) {t u : Int} (h : t ≤ u) :
    started cs t ≤ started cs u := by
  unfold started
  induction cs with
  | nil => exact le_refl _
  | cons c cs ih =>
    rw [List.takeWhile_cons, List.takeWhile_cons]
    by_cases hc : c.startTime ≤ t
    · rw [if_pos (by simpa using hc), if_pos (by simp; omega)]
      simpa using ih
    · rw [if_neg (by simpa using hc)]
      exact Nat.zero_le _

/-- If at most one change ends per frame, none waits. -/
theorem taken_on_time {cs : List (ParameterChange V)} (hi : ∀ c ∈ cs, c.method = .immediate)
    (hs : cs.Pairwise (fun a b => a.endTime ≤ b.endTime)) (ts : List Int) :
    ∀ (n : Nat), OnePerFrame cs n ts → ts.Pairwise (· ≤ ·) → (∀ t ∈ ts, n ≤ started cs t) →
    ∀ j t, ts[j]? = some t → taken cs n (ts.take (j + 1)) = started cs t := by
  have hlen : ∀ t, (ended cs t).length = started cs t := by
    intro t
    rw [ended_sorted hi hs, List.length_take]
    have := started_le cs t
    omega
  induction ts with
  | nil => intro n _ _ _ j t h; simp at h
  | cons u ts ih =>
    intro n ho hp hn j t h
    obtain ⟨o1, o2⟩ := ho
    obtain ⟨p1, p2⟩ := List.pairwise_cons.mp hp
    rw [hlen] at o1 o2
    have h0 := hn u List.mem_cons_self
    have hmax : max n (min (n + 1) (started cs u)) = started cs u := by omega
    cases j with
    | zero =>
      simp at h
      subst h
      simp only [List.take_succ_cons, List.take_zero, taken]
      exact hmax
    | succ j =>
      simp only [List.getElem?_cons_succ] at h
      rw [List.take_succ_cons, taken, hmax]
      exact ih _ o2 p2 (fun x hx => started_mono cs (p1 x hx)) j t h

/-! ## Changes that are over -/

/-- The states in which everything pending is over at time `T`. -/
structure Over (T : Int) (p : RealtimeParameter V) : Prop where
  due : ∀ c ∈ p.changes, c.startTime ≤ T ∧ c.endTime ≤ T
  done : p.changes = [] → p.current.endTime ≤ T ∧ p.value = p.current.value

theorem Over.step {A : Arith V} {sr : Nat} {T : Int} {p : RealtimeParameter V} (h : Over T p) {t : Int}
    (ht : T ≤ t) : Over T (step A sr p t) ∧ (RealtimeParameter.step A sr p t).changes = p.changes.tail ∧
      (RealtimeParameter.step A sr p t).value = lastValue p.value (p.changes.take 1) := by
  cases hc : p.changes with
  | nil =>
    obtain ⟨d1, d2⟩ := h.done hc
    rw [step_idle A p t sr (by intro c rest h'; rw [hc] at h'; cases h') (by omega) d2]
    exact ⟨h, hc, rfl⟩
  | cons c rest =>
    have hcd := h.due c (by rw [hc]; exact List.mem_cons_self)
    obtain ⟨g1, g2, g3⟩ := step_over A p t sr c rest hc (by omega) (by omega)
    refine ⟨⟨?_, ?_⟩, g1, g3⟩
    · rw [g1]; intro x hx; exact h.due x (by rw [hc]; exact List.mem_cons_of_mem _ hx)
    · intro _; rw [g2, g3]; exact ⟨hcd.2, rfl⟩

theorem Over.steps {A : Arith V} {sr : Nat} {T : Int} (ts : List Int) :
    ∀ {p : RealtimeParameter V}, Over T p → (∀ t ∈ ts, T ≤ t) → ∀ j, j < ts.length →
    (steps A sr p ts).1[j]? = some (lastValue p.value (p.changes.take (j + 1))) := by
  induction ts with
  | nil => intro p _ _ j hj; exact absurd hj (Nat.not_lt_zero _)
  | cons t ts ih =>
    intro p h ht j hj
    obtain ⟨h1, h2, h3⟩ := h.step (A := A) (sr := sr) (ht t List.mem_cons_self)
    rw [RealtimeParameter.steps]
    cases j with
    | zero => simp only [List.getElem?_cons_zero, h3]
    | succ j =>
      simp only [List.getElem?_cons_succ]
      rw [ih h1 (fun u hu => ht u (List.mem_cons_of_mem _ hu)) j (by simpa using hj), h2, h3]
      congr 1
      cases hc : p.changes with
      | nil => rfl
      | cons c rest =>
        simp only [List.tail_cons, List.take_succ_cons, List.take_zero]
        cases rest with
        | nil => rfl
        | cons d rest => simp [lastValue, List.getLast?_cons]

/-! ## Linear ramps over the reals -/

/-- The length of a ramp in samples. -/
noncomputable def rampLength (t e : Int) (sr : Nat) : ℝ := ((e - t : Int) : ℝ) * sr / 2 ^ 32

theorem slope_real (w v : ℝ) (e t : Int) (sr : Nat) :
    slope realArith w v e t sr = (w - v) / rampLength t e sr := by
  unfold slope duration rampLength
  change (w - v) / (((Timestamp.asSamples e sr : ℚ) : ℝ) - ((Timestamp.asSamples t sr : ℚ) : ℝ)) = _
  congr 1
  unfold Timestamp.asSamples Timestamp.asSeconds Timestamp.one
  push_cast
  ring

theorem epsilon_pos : 0 < epsilon := by unfold epsilon; positivity

theorem epsilon_lt_one : epsilon < 1 := by unfold epsilon; norm_num

theorem not_near_zero {x : ℝ} (h : epsilon < |x|) : relativeEq x 0 = false := by
  unfold relativeEq
  rw [decide_eq_false_iff_not]
  have h0 := epsilon_pos
  rintro (h1 | h1 | h1)
  · rw [h1, abs_zero] at h; linarith
  · rw [sub_zero] at h1; linarith
  · rw [sub_zero, abs_zero, max_eq_left (abs_nonneg x)] at h1
    have := epsilon_lt_one
    nlinarith [abs_nonneg x]

/-- A ramp in progress. -/
theorem steps_ramp (sr : Nat) (inc : ℝ) (ts : List Int) : ∀ (p : RealtimeParameter ℝ),
    p.changes = [] → p.coefficient = 1 → p.increment = inc → ts.Pairwise (· ≤ ·) →
    ∀ (j : Nat) (t : Int), ts[j]? = some t → (steps realArith sr p ts).1[j]? =
      some (if t < p.current.endTime then p.value + (j + 1) * inc else p.current.value) := by
  induction ts with
  | nil => intro p _ _ _ _ j t h; simp at h
  | cons u ts ih =>
    intro p hc hco hin hp j t h
    obtain ⟨p1, p2⟩ := List.pairwise_cons.mp hp
    have hb : begin realArith p u sr p.value = p :=
      begin_none _ _ _ _ _ (by intro c rest h'; rw [hc] at h'; cases h')
    have hst : step realArith sr p u = { p with value := advance realArith p u p.value } := by
      unfold step valueAtTime
      simp only [hb]
    have hv : advance realArith p u p.value =
        if u < p.current.endTime then p.value + inc else p.current.value := by
      unfold advance
      rw [hco, hin]
      change (if p.current.endTime ≤ u then p.current.value else p.value * 1 + inc) = _
      by_cases hh : p.current.endTime ≤ u
      · rw [if_pos hh, if_neg (by omega)]
      · rw [if_neg hh, if_pos (by omega), mul_one]
    rw [steps]
    cases j with
    | zero =>
      simp at h
      subst h
      simp only [List.getElem?_cons_zero]
      rw [hst]
      simp only
      rw [hv]
      congr 1
      split
      · push_cast; ring
      · rfl
    | succ j =>
      simp only [List.getElem?_cons_succ] at h ⊢
      have := ih (step realArith sr p u) (by rw [hst]; exact hc) (by rw [hst]; exact hco)
        (by rw [hst]; exact hin) p2 j t h
      rw [this, hst]
      simp only
      congr 1
      by_cases ht : t < p.current.endTime
      · rw [if_pos ht, if_pos ht, hv, if_pos (by
          have := p1 t (List.mem_of_getElem? h); omega)]
        push_cast
        ring
      · rw [if_neg ht, if_neg ht]

end RealtimeParameter
end Rawdio
