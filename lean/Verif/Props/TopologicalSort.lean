import Verif.Lemmas.GraphRun
import Verif.Lemmas.TopologicalSort

/-!
# Properties of the processing order (C10, C11)
-/

namespace Rawdio
namespace TopologicalSort

open Graph

variable {N E : Type}

/-- C10: after any sequence of edit requests, if the resulting patch is acyclic and has no parallel
connections, then for every iteration order of the hash maps sorting succeeds and gives a valid
processing order. -/
theorem C10_sort_valid (g : Graph N E) (hg : g.Reachable) (p : Patch E) (hp : g.Shows p)
    (hac : p.Acyclic) (hnp : p.NoParallel) (σ : IterOrder Id) (τ ρ : Nat → IterOrder Id) :
    ∃ order, sort g σ τ ρ = .ok order ∧ p.ValidOrder order := by
  obtain ⟨q, hr⟩ := hg.rep
  obtain ⟨D, order, hi, hst, hs⟩ := sort_cases hr σ τ ρ
  have hall := hi.complete hst (fun c hc => (hr.ends c hc).1)
    (acyclic_of_shows hp hr.shows hac) (noParallel_of_shows hp hr.shows hnp)
  have hlen : order.length = q.nodes.length := by
    have a := (List.subperm_of_subset hi.nodup hi.sub).length_le
    have b := (List.subperm_of_subset hr.nodupP hall).length_le
    omega
  have hok : sort g σ τ ρ = .ok order := by rw [hs, if_pos hlen]
  exact ⟨order, hok, validOrder_of_shows hr.shows hp (sort_ok hr hok).1⟩

/-- A diamond 1 → {2, 3} → 4. -/
def diamond : List (GraphCmd Unit Nat) :=
  [.addNode 1 (), .addNode 2 (), .addNode 3 (), .addNode 4 (), .connect 10 1 2 0,
   .connect 11 1 3 0, .connect 12 2 4 0, .connect 13 3 4 0]

/-- The patch of the diamond. -/
def diamondPatch : Patch Nat :=
  ⟨[1, 2, 3, 4], [⟨10, 1, 2, 0⟩, ⟨11, 1, 3, 0⟩, ⟨12, 2, 4, 0⟩, ⟨13, 3, 4, 0⟩]⟩

theorem diamond_steps : Patch.Steps Patch.empty diamond diamondPatch := by
  refine .cons (.addNode _ 1 () (by decide)) (.cons (.addNode _ 2 () (by decide))
    (.cons (.addNode _ 3 () (by decide)) (.cons (.addNode _ 4 () (by decide))
    (.cons (.connect _ 10 1 2 0 (by decide) (by decide))
    (.cons (.connect _ 11 1 3 0 (by decide) (by decide))
    (.cons (.connect _ 12 2 4 0 (by decide) (by decide))
    (.cons (.connect _ 13 3 4 0 (by decide) (by decide)) (.nil _))))))))

/-- The diamond meets the hypotheses of C10. -/
example : diamondPatch.Acyclic ∧ diamondPatch.NoParallel ∧
    ∃ g : Graph Unit Nat, g.Reachable ∧ g.Shows diamondPatch := by
  refine ⟨acyclic_of_valid (order := [1, 2, 3, 4]) ⟨by decide, fun _ => Iff.rfl, ?_⟩,
    by unfold Patch.NoParallel; decide, ?_⟩
  · intro c hc
    simp only [diamondPatch, List.mem_cons, List.not_mem_nil, or_false] at hc
    rcases hc with rfl | rfl | rfl | rfl
    · exact ⟨[], [], [3, 4], rfl⟩
    · exact ⟨[], [2], [4], rfl⟩
    · exact ⟨[1], [3], [], rfl⟩
    · exact ⟨[1, 2], [], [], rfl⟩
  · obtain ⟨g, hg⟩ : ∃ g, execAll (fun _ => .id) 0 Graph.empty diamond = .ok g := ⟨_, rfl⟩
    obtain ⟨p, hs, hr⟩ := execAll_rep (fun _ => .id) diamond 0 Graph.empty g Patch.empty rep_empty
      (by decide) (by intro x hx; simp [Patch.empty] at hx) hg
    refine ⟨g, ⟨_, _, by decide, hg⟩, ?_⟩
    have : p = diamondPatch := by
      cases hs with
      | cons s1 hs => cases s1; cases hs with
      | cons s1 hs => cases s1; cases hs with
      | cons s1 hs => cases s1; cases hs with
      | cons s1 hs => cases s1; cases hs with
      | cons s1 hs => cases s1; cases hs with
      | cons s1 hs => cases s1; cases hs with
      | cons s1 hs => cases s1; cases hs with
      | cons s1 hs => cases s1; cases hs; rfl
    rw [← this]; exact hr.shows

/-- C11: sorting always terminates: it either gives an order or aborts. -/
theorem C11_sort_terminates (g : Graph N E) (hg : g.Reachable) (σ : IterOrder Id)
    (τ ρ : Nat → IterOrder Id) :
    (∃ order, sort g σ τ ρ = .ok order) ∨ sort g σ τ ρ = .error .panic := by
  obtain ⟨q, hr⟩ := hg.rep
  obtain ⟨D, order, _, _, hs⟩ := sort_cases hr σ τ ρ
  rw [hs]
  split_ifs
  · exact .inl ⟨order, rfl⟩
  · exact .inr rfl

example : (Graph.empty : Graph Unit Nat).Reachable := ⟨fun _ => .id, [], by decide, rfl⟩

/-- C11: sorting aborts exactly when the patch has a cycle or two connections between the same
ordered pair of nodes, whatever the iteration orders. -/
theorem C11_sort_aborts_iff (g : Graph N E) (hg : g.Reachable) (p : Patch E) (hp : g.Shows p)
    (σ : IterOrder Id) (τ ρ : Nat → IterOrder Id) :
    sort g σ τ ρ = .error .panic ↔ ¬ p.Acyclic ∨ ¬ p.NoParallel := by
  constructor
  · intro h
    by_contra hcon
    push Not at hcon
    obtain ⟨order, h', _⟩ := C10_sort_valid g hg p hp hcon.1 hcon.2 σ τ ρ
    rw [h] at h'
    cases h'
  · intro h
    rcases C11_sort_terminates g hg σ τ ρ with ⟨order, hs⟩ | hs
    · exfalso
      obtain ⟨q, hr⟩ := hg.rep
      obtain ⟨h1, h2⟩ := sort_ok hr hs
      rcases h with h | h
      · exact h (acyclic_of_shows hr.shows hp (acyclic_of_valid h1))
      · exact h (noParallel_of_shows hr.shows hp h2)
    · exact hs

/-- The claim that sorting an acyclic patch never aborts. -/
def AcyclicSorts (N E : Type) : Prop :=
  ∀ (g : Graph N E) (p : Patch E), g.Reachable → g.Shows p → p.Acyclic →
    ∀ σ τ ρ, ∃ order, sort g σ τ ρ = .ok order

/-- Two nodes with two parallel connections (left to left, right to right). -/
def parallelCmds : List (GraphCmd Unit Nat) :=
  [.addNode 1 (), .addNode 2 (), .connect 10 1 2 0, .connect 11 1 2 1]

/-- C11 is violated: two parallel connections abort the audio thread although there is no cycle. -/
theorem C11_acyclic_sorts_violated : ¬ AcyclicSorts Unit Nat := by
  intro h
  obtain ⟨g, hg⟩ : ∃ g, execAll (fun _ => .id) 0 Graph.empty parallelCmds = .ok g := ⟨_, rfl⟩
  obtain ⟨p, hs, hr⟩ := execAll_rep (fun _ => .id) parallelCmds 0 Graph.empty g Patch.empty
    rep_empty (by decide) (by intro x hx; simp [Patch.empty] at hx) hg
  have hp : p = ⟨[1, 2], [⟨10, 1, 2, 0⟩, ⟨11, 1, 2, 1⟩]⟩ := by
    cases hs with
    | cons s1 hs => cases s1; cases hs with
    | cons s1 hs => cases s1; cases hs with
    | cons s1 hs => cases s1; cases hs with
    | cons s1 hs => cases s1; cases hs; rfl
  have hac : p.Acyclic := by
    apply acyclic_of_valid (order := [1, 2])
    rw [hp]
    refine ⟨by decide, fun _ => Iff.rfl, ?_⟩
    intro c hc
    simp only [List.mem_cons, List.not_mem_nil, or_false] at hc
    rcases hc with rfl | rfl <;> exact ⟨[], [], [], rfl⟩
  have hreach : g.Reachable := ⟨fun _ => .id, parallelCmds, by decide, hg⟩
  obtain ⟨order, ho⟩ := h g p hreach hr.shows hac .id (fun _ => .id) (fun _ => .id)
  have := (C11_sort_aborts_iff g hreach p hr.shows .id (fun _ => .id) (fun _ => .id)).mpr
    (.inr (by rw [hp]; unfold Patch.NoParallel; decide))
  rw [ho] at this
  cases this

/-- C11, partial: an acyclic patch does not abort if no two connections join the same ordered pair of
nodes.  Missing: parallel connections (see `C11_acyclic_sorts_violated`). -/
theorem C11_acyclic_sorts_partial (g : Graph N E) (p : Patch E) (hg : g.Reachable)
    (hp : g.Shows p) (hac : p.Acyclic) (hnp : p.NoParallel) (σ : IterOrder Id)
    (τ ρ : Nat → IterOrder Id) : ∃ order, sort g σ τ ρ = .ok order :=
  let ⟨order, h, _⟩ := C10_sort_valid g hg p hp hac hnp σ τ ρ
  ⟨order, h⟩

end TopologicalSort
end Rawdio
