import Mathlib.Data.List.Induction
import Mathlib.Data.List.Nodup
import Mathlib.Data.List.Sort
import Verif.Model.Notifiers

/-! # Properties of notifiers (C58) -/

namespace Rawdio
namespace Notifiers

variable {World : Type}

/-- Spec: the functions registered by a sequence of actions, in order. -/
def registeredBy : List (NotifierAction World) → List (Notifier World)
  | [] => []
  | .add f :: as => f :: registeredBy as
  | .pass :: as => registeredBy as

/-- Spec: the notifier with this number has asked to be removed in one of these passes. -/
def AskedToGo (passes : List (List (Nat × Bool))) (i : Nat) : Prop := ∃ p ∈ passes, (i, false) ∈ p

/-- Spec: the effect and the answers of calling some functions one after the other. -/
def callAll : List (Nat × Notifier World) → World → World × List (Nat × Bool)
  | [], w => (w, [])
  | (i, f) :: rest, w => ((callAll rest (f w).1).1, (i, (f w).2) :: (callAll rest (f w).1).2)

open Classical in
/-- Spec: the notifiers that are due, with their numbers, in the order of registration. -/
noncomputable def due (functions : List (Notifier World)) (passes : List (List (Nat × Bool))) :
    List (Nat × Notifier World) :=
  (functions.mapIdx (fun i f => (i, f))).filter (fun p => ¬ AskedToGo passes p.1)

theorem retain_calls (l : List (Nat × Notifier World)) : ∀ w, (retain l w).2 = callAll l w := by
  induction l with
  | nil => intro w; rfl
  | cons a l ih =>
    intro w
    obtain ⟨i, f⟩ := a
    simp only [retain, callAll, ← ih]

theorem callAll_fst (l : List (Nat × Notifier World)) : ∀ w, (callAll l w).2.map Prod.fst = l.map Prod.fst := by
  induction l with
  | nil => intro w; rfl
  | cons a l ih =>
    intro w
    obtain ⟨i, f⟩ := a
    simp [callAll, ih]

theorem retain_kept (l : List (Nat × Notifier World)) (hl : (l.map Prod.fst).Nodup) : ∀ w,
    (retain l w).1 = l.filter (fun p => !(callAll l w).2.contains (p.1, false)) := by
  induction l with
  | nil => intro w; rfl
  | cons a l ih =>
    intro w
    obtain ⟨i, f⟩ := a
    rw [List.map_cons, List.nodup_cons] at hl
    simp only [retain, callAll]
    have h1 := ih hl.2 (f w).1
    have hi : ∀ b, (i, b) ∉ (callAll l (f w).1).2 := by
      intro b hb
      apply hl.1
      rw [← callAll_fst l (f w).1]
      exact List.mem_map.mpr ⟨(i, b), hb, rfl⟩
    have h2 : l.filter (fun p => !((i, (f w).2) :: (callAll l (f w).1).2).contains (p.1, false)) =
        l.filter (fun p => !(callAll l (f w).1).2.contains (p.1, false)) := by
      apply List.filter_congr
      intro p hp
      have hne : p.1 ≠ i := by
        intro h
        apply hl.1
        rw [← h]
        exact List.mem_map.mpr ⟨p, hp, rfl⟩
      simp [hne]
    rw [List.filter_cons, h2, ← h1]
    cases h : (f w).2
    · simp
    · have := hi false
      simp [this]

theorem registeredBy_append (as bs : List (NotifierAction World)) :
    registeredBy (as ++ bs) = registeredBy as ++ registeredBy bs := by
  induction as with
  | nil => rfl
  | cons a as ih => cases a <;> simp [registeredBy, ih]

theorem run_snoc (w : World) (as : List (NotifierAction World)) (a : NotifierAction World) :
    run w (as ++ [a]) = step (run w as) a := by
  unfold run
  rw [List.foldl_append]
  rfl

theorem due_fst_nodup (functions : List (Notifier World)) (passes : List (List (Nat × Bool))) :
    ((due functions passes).map Prod.fst).Pairwise (· < ·) := by
  unfold due
  rw [List.pairwise_map]
  apply List.Pairwise.filter
  rw [List.pairwise_iff_getElem]
  intro i j hi hj hij
  simpa using hij

/-- Numbers of passes are numbers of notifiers registered before. -/
theorem run_inv (w : World) (as : List (NotifierAction World)) :
    (run w as).notifiers = due (registeredBy as) (run w as).passes ∧
    (run w as).registered = (registeredBy as).length ∧
    ∀ p ∈ (run w as).passes, ∀ c ∈ p, c.1 < (registeredBy as).length := by
  induction as using List.reverseRecOn with
  | nil => exact ⟨rfl, rfl, by simp [run, init]⟩
  | append_singleton as a ih =>
    obtain ⟨h1, h2, h3⟩ := ih
    rw [run_snoc, registeredBy_append]
    cases a with
    | add f =>
      simp only [step, registeredBy, List.length_append, List.length_singleton]
      refine ⟨?_, by rw [h2], fun p hp c hc => by have := h3 p hp c hc; omega⟩
      have hnot : ¬ AskedToGo (run w as).passes (registeredBy as).length := by
        rintro ⟨p, hp, hc⟩
        have := h3 p hp _ hc
        simp at this
      unfold due at h1 ⊢
      rw [List.mapIdx_append, List.filter_append, ← h1, h2]
      simp [hnot]
    | pass =>
      simp only [step, registeredBy, List.append_nil]
      have hnd : ((run w as).notifiers.map Prod.fst).Nodup := by
        rw [h1]
        exact (due_fst_nodup _ _).imp (fun h => Nat.ne_of_lt h)
      have hcalls : (retain (run w as).notifiers (run w as).world).2.2 = (callAll (run w as).notifiers (run w as).world).2 := by
        rw [retain_calls]
      have hmem : ∀ c ∈ (callAll (run w as).notifiers (run w as).world).2, c.1 < (registeredBy as).length := by
        intro c hc
        have : c.1 ∈ (run w as).notifiers.map Prod.fst := by
          rw [← callAll_fst _ (run w as).world]
          exact List.mem_map.mpr ⟨c, hc, rfl⟩
        rw [h1] at this
        obtain ⟨q, hq, he⟩ := List.mem_map.mp this
        unfold due at hq
        have hq' := (List.mem_filter.mp hq).1
        obtain ⟨i, hi, hi'⟩ := List.mem_mapIdx.mp hq'
        rw [← he, ← hi']
        exact hi
      refine ⟨?_, h2, ?_⟩
      · rw [retain_kept _ hnd, hcalls]
        generalize (callAll (run w as).notifiers (run w as).world).2 = calls
        rw [h1]
        unfold due
        rw [List.filter_filter]
        apply List.filter_congr
        intro p _
        have key : AskedToGo ((run w as).passes ++ [calls]) p.1 ↔
            AskedToGo (run w as).passes p.1 ∨ (p.1, false) ∈ calls := by
          unfold AskedToGo
          constructor
          · rintro ⟨q, b1, b2⟩
            rw [List.mem_append, List.mem_singleton] at b1
            rcases b1 with b1 | b1
            · exact Or.inl ⟨q, b1, b2⟩
            · exact Or.inr (b1 ▸ b2)
          · rintro (⟨q, b1, b2⟩ | b2)
            · exact ⟨q, List.mem_append_left _ b1, b2⟩
            · exact ⟨_, List.mem_append_right _ (List.mem_singleton.mpr rfl), b2⟩
        rw [Bool.eq_iff_iff]
        simp only [Bool.and_eq_true, Bool.not_eq_true', List.contains_eq_mem, decide_eq_false_iff_not, decide_eq_true_eq,
          key, not_or]
        exact and_comm
      · intro p hp c hc
        rw [List.mem_append, List.mem_singleton] at hp
        rcases hp with hp | rfl
        · exact h3 p hp c hc
        · rw [hcalls] at hc
          exact hmem c hc

/-- C58: after any history, a pass calls exactly the notifiers that have been registered and have not asked to go, one
after the other in the order of registration, each seeing what the ones before it did; earlier passes are not
touched. -/
theorem C58_pass (w : World) (as : List (NotifierAction World)) :
    (run w (as ++ [.pass])).passes = (run w as).passes ++
      [(callAll (due (registeredBy as) (run w as).passes) (run w as).world).2] ∧
    (run w (as ++ [.pass])).world = (callAll (due (registeredBy as) (run w as).passes) (run w as).world).1 := by
  rw [run_snoc]
  simp only [step, retain_calls, (run_inv w as).1]
  exact ⟨trivial, trivial⟩

/-- C58: in every pass of every history each notifier is called at most once, and in the order of registration. -/
theorem C58_order (w : World) (as : List (NotifierAction World)) :
    ∀ p ∈ (run w as).passes, (p.map Prod.fst).Pairwise (· < ·) := by
  induction as using List.reverseRecOn with
  | nil => simp [run, init]
  | append_singleton as a ih =>
    cases a with
    | add f => rw [run_snoc]; exact ih
    | pass =>
      rw [(C58_pass w as).1]
      intro p hp
      rw [List.mem_append, List.mem_singleton] at hp
      rcases hp with hp | rfl
      · exact ih p hp
      · rw [callAll_fst]
        exact due_fst_nodup _ _

/-- C58: a notifier is called in a pass exactly when it was registered before and has not asked to go in an earlier
pass. -/
theorem C58_called_iff (w : World) (as : List (NotifierAction World)) (i : Nat) :
    (∃ b, ∃ p, (run w (as ++ [.pass])).passes.getLast? = some p ∧ (i, b) ∈ p) ↔
      i < (registeredBy as).length ∧ ¬ AskedToGo (run w as).passes i := by
  rw [(C58_pass w as).1]
  have key : (∃ b, (i, b) ∈ (callAll (due (registeredBy as) (run w as).passes) (run w as).world).2) ↔
      i ∈ (due (registeredBy as) (run w as).passes).map Prod.fst := by
    rw [← callAll_fst _ (run w as).world, List.mem_map]
    constructor
    · rintro ⟨b, hb⟩; exact ⟨(i, b), hb, rfl⟩
    · rintro ⟨⟨j, b⟩, hb, rfl⟩; exact ⟨b, hb⟩
  have hdue : i ∈ (due (registeredBy as) (run w as).passes).map Prod.fst ↔
      i < (registeredBy as).length ∧ ¬ AskedToGo (run w as).passes i := by
    unfold due
    rw [List.mem_map]
    constructor
    · rintro ⟨q, hq, rfl⟩
      obtain ⟨h1, h2⟩ := List.mem_filter.mp hq
      obtain ⟨j, hj, rfl⟩ := List.mem_mapIdx.mp h1
      exact ⟨hj, by simpa using h2⟩
    · rintro ⟨h1, h2⟩
      refine ⟨(i, (registeredBy as)[i]), List.mem_filter.mpr ⟨List.mem_mapIdx.mpr ⟨i, h1, rfl⟩, by simpa using h2⟩, rfl⟩
  rw [← hdue, ← key]
  simp

/-- C58: once a notifier has asked to go it is not called in any later pass, whatever else happens. -/
theorem C58_never_again (w : World) (as bs : List (NotifierAction World)) (i : Nat) (h : AskedToGo (run w as).passes i) :
    ∃ later, (run w (as ++ bs)).passes = (run w as).passes ++ later ∧ ∀ p ∈ later, ∀ b, (i, b) ∉ p := by
  induction bs using List.reverseRecOn with
  | nil => exact ⟨[], by simp, by simp⟩
  | append_singleton bs a ih =>
    obtain ⟨later, h1, h2⟩ := ih
    rw [← List.append_assoc]
    cases a with
    | add f => rw [run_snoc]; exact ⟨later, h1, h2⟩
    | pass =>
      have hgo : AskedToGo (run w (as ++ bs)).passes i := by
        obtain ⟨p, hp, hi⟩ := h
        exact ⟨p, by rw [h1]; exact List.mem_append_left _ hp, hi⟩
      have hc := C58_called_iff w (as ++ bs) i
      have hp := (C58_pass w (as ++ bs)).1
      refine ⟨later ++ [(callAll (due (registeredBy (as ++ bs)) (run w (as ++ bs)).passes) (run w (as ++ bs)).world).2], ?_, ?_⟩
      · rw [hp, h1, List.append_assoc]
      · intro p hp' b hb
        rw [List.mem_append, List.mem_singleton] at hp'
        rcases hp' with hp' | rfl
        · exact h2 p hp' b hb
        · exact (hc.mp ⟨b, _, by rw [hp]; simp, hb⟩).2 hgo

/-- A history: two notifiers that count their calls, the first of them leaving at its second call. -/
def exampleHistory : List (NotifierAction Nat) :=
  [.add (fun w => (w + 1, w < 2)), .add (fun w => (w + 10, true)), .pass, .pass, .pass]

example : (run 0 exampleHistory).passes = [[(0, true), (1, true)], [(0, false), (1, true)], [(1, true)]] := by
  rfl

end Notifiers
end Rawdio
