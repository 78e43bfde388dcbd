import Mathlib.Data.List.Induction
import Mathlib.Data.List.Nodup
import Mathlib.Data.List.Sort
import Mathlib.Logic.Function.Basic
import Mathlib.Tactic.Linarith
import Verif.Model.Ids

/-! # Properties of identifiers (C57) -/

namespace Rawdio
namespace IdState

theorem run_snoc (width : Nat) (accesses : List Access) (schedule : List Nat) (t : Nat) :
    run width accesses (schedule ++ [t]) = step width accesses (run width accesses schedule) t := by
  unfold run
  rw [List.foldl_append]
  rfl

/-- What is known after any schedule: the calls return the numbers 0, 1, 2, ... in the order of the schedule. -/
theorem run_eq (width : Nat) (schedule : List Nat) :
    (run width generateAccesses schedule).next = schedule.length % 2 ^ width ∧
    (∀ t, ((run width generateAccesses schedule).todo t).1 = generateAccesses) ∧
    (run width generateAccesses schedule).returned = schedule.mapIdx (fun i t => (t, i % 2 ^ width)) := by
  induction schedule using List.reverseRecOn with
  | nil => exact ⟨by simp [run, init], fun _ => rfl, rfl⟩
  | append_singleton l t ih =>
    obtain ⟨h1, h2, h3⟩ := ih
    rw [run_snoc]
    have ht := h2 t
    generalize run width generateAccesses l = s at *
    obtain ⟨next, todo, returned⟩ := s
    simp only at h1 h2 h3 ht
    obtain ⟨seen, e⟩ : ∃ seen, todo t = ([.fetchAdd 1], seen) :=
      ⟨(todo t).2, Prod.ext ht rfl⟩
    unfold step
    simp only [e, access, if_true]
    refine ⟨?_, ?_, ?_⟩
    · rw [h1, List.length_append, List.length_singleton, Nat.mod_add_mod]
    · intro t'
      by_cases h : t' = t
      · subst h; simp
      · rw [Function.update_of_ne h]; exact h2 t'
    · rw [h3, h1, List.mapIdx_append]
      simp

/-- C57: whatever the interleaving of any number of threads, up to `2 ^ width` calls return different
identifiers. -/
theorem C57_distinct (width : Nat) (schedule : List Nat) (h : schedule.length ≤ 2 ^ width) :
    ((run width generateAccesses schedule).returned.map Prod.snd).Nodup := by
  rw [(run_eq width schedule).2.2]
  have e : (schedule.mapIdx (fun i t => (t, i % 2 ^ width))).map Prod.snd = List.range schedule.length := by
    apply List.ext_getElem
    · simp
    · intro i h1 h2
      simp only [List.getElem_map, List.getElem_mapIdx, List.getElem_range]
      simp only [List.length_map, List.length_mapIdx] at h1
      exact Nat.mod_eq_of_lt (by omega)
  rw [e]
  exact List.nodup_range

/-- C57: every call returns to the thread that made it, as many identifiers as calls. -/
theorem C57_one_per_call (width : Nat) (schedule : List Nat) :
    (run width generateAccesses schedule).returned.map Prod.fst = schedule := by
  rw [(run_eq width schedule).2.2]
  apply List.ext_getElem
  · simp
  · intro i h1 h2
    simp

/-- C57: within one thread the identifiers grow, until the counter wraps. -/
theorem C57_growing (width : Nat) (schedule : List Nat) (h : schedule.length ≤ 2 ^ width) (t : Nat) :
    (((run width generateAccesses schedule).returned.filter (fun p => p.1 = t)).map Prod.snd).Pairwise (· < ·) := by
  rw [List.pairwise_map]
  apply List.Pairwise.filter
  rw [(run_eq width schedule).2.2, List.pairwise_iff_getElem]
  intro i j hi hj hij
  simp only [List.length_mapIdx] at hi hj
  simp only [List.getElem_mapIdx]
  rw [Nat.mod_eq_of_lt (by omega), Nat.mod_eq_of_lt (by omega)]
  exact hij

/-- C57, the bound is exact: one more call returns the first identifier again. -/
theorem C57_wraps (width : Nat) (schedule : List Nat) (h : schedule.length = 2 ^ width) (t : Nat) :
    (run width generateAccesses (schedule ++ [t])).returned = (run width generateAccesses schedule).returned ++ [(t, 0)] := by
  rw [(run_eq width _).2.2, (run_eq width _).2.2, List.mapIdx_append]
  simp [h]

example : ((run 64 generateAccesses [7, 8, 7]).returned) = [(7, 0), (8, 1), (7, 2)] := by
  rw [(run_eq 64 _).2.2]
  rfl

/-- The claim is about the code and not about any counter: reading and writing in two steps hands out an identifier
twice as soon as two threads interleave. -/
theorem C57_needs_fetch_add : ¬ ∀ (schedule : List Nat), schedule.length ≤ 2 ^ 64 →
    ((run 64 [.load, .store] schedule).returned.map Prod.snd).Nodup := by
  intro h
  have := h [0, 1, 0, 1] (by norm_num)
  have e : (run 64 [.load, .store] [0, 1, 0, 1]).returned = [(0, 0), (1, 0)] := by
    simp [run, step, init, access, Function.update]
  rw [e] at this
  simp at this

end IdState
end Rawdio
