import Verif.Lemmas.GraphRun

/-!
# Properties of the patch graph (C07, C08, C09)
-/

namespace Rawdio
namespace Graph

variable {N E : Type}

/-- Requests used by the examples: three nodes, two parallel connections and one more, then one of
the parallel connections is removed and replaced. -/
def demoCmds : List (GraphCmd Unit Nat) :=
  [.addNode 1 (), .addNode 2 (), .addNode 3 (), .connect 10 1 2 7, .connect 11 1 2 8,
   .connect 12 3 2 9, .disconnect 1 2, .connect 13 1 3 6]

/-- C07: after any sequence of edit requests that does not abort, whatever the iteration orders of
the hash maps, the graph shows exactly a patch obtained by the specified edits: walking a node
terminates and lists exactly the connections made and not removed, each once, oldest first. -/
theorem C07_walk (σ : Nat → IterOrder Id) (cs : List (GraphCmd N E))
    (hids : (GraphCmd.newIds cs).Nodup) (g : Graph N E)
    (hg : execAll σ 0 Graph.empty cs = .ok g) :
    ∃ p, Patch.Steps (Patch.empty) cs p ∧ g.Shows p := by
  obtain ⟨p, hs, hr⟩ := execAll_rep σ cs 0 Graph.empty g Patch.empty rep_empty hids
    (by intro x hx; simp [Patch.empty] at hx) hg
  exact ⟨p, hs, hr.shows⟩

example : (GraphCmd.newIds demoCmds).Nodup ∧ ∃ g, execAll (fun _ => .rev) 0 Graph.empty demoCmds
    = .ok g ∧ g.edgeIds 2 .incoming = .ok [11, 12] ∧ g.edgeIds 1 .outgoing = .ok [11, 13] := by
  refine ⟨by decide, _, rfl, rfl, rfl⟩

example : ∃ g, execAll (fun _ => .id) 0 Graph.empty demoCmds
    = .ok g ∧ g.edgeIds 2 .incoming = .ok [10, 12] ∧ g.edgeIds 1 .outgoing = .ok [10, 13] :=
  ⟨_, rfl, rfl, rfl⟩

/-- C08: in every reachable graph, disconnecting `a` from `b` removes exactly one connection from
`a` to `b` when there is one: its data is returned, and every other connection of every node keeps
its identity, data and place in the order.  -/
theorem C08_disconnect (g : Graph N E) (hg : g.Reachable) (σ : IterOrder Id) (a b : Id)
    (hex : ∃ i e, g.getEdge i = some e ∧ e.fromNode = a ∧ e.toNode = b) :
    ∃ i e, g.getEdge i = some e ∧ e.fromNode = a ∧ e.toNode = b ∧
      (g.removeEdge σ a b).2 = some e.data ∧
      (∀ n, (g.removeEdge σ a b).1.getNode n = g.getNode n) ∧
      (g.removeEdge σ a b).1.getEdge i = none ∧
      (∀ j e', j ≠ i → g.getEdge j = some e' → ∃ e'', (g.removeEdge σ a b).1.getEdge j = some e'' ∧
        e''.fromNode = e'.fromNode ∧ e''.toNode = e'.toNode ∧ e''.data = e'.data) ∧
      (∀ n dir l, (g.getNode n).isSome → g.edgeIds n dir = .ok l →
        (g.removeEdge σ a b).1.edgeIds n dir = .ok (l.filter (· != i))) := by
  obtain ⟨p, hr⟩ := hg.rep
  cases hf : g.findEdge σ a b with
  | none =>
    exfalso
    obtain ⟨i, e, he, hs, hd⟩ := hex
    obtain ⟨c, hc, hid⟩ := hr.edgeNone i (by simp only [getEdge] at he; rw [he]; rfl)
    obtain ⟨e', q1, q2, q3, _⟩ := hr.edge c hc
    rw [hid, show g.edges.get? i = some e from he] at q1
    injection q1 with q1
    subst q1
    exact findEdge_none hr hf c hc ⟨q2 ▸ hs, q3 ▸ hd⟩
  | some i =>
    obtain ⟨c, hc, hid, hs, hd⟩ := findEdge_some hr hf
    subst hid
    obtain ⟨e, q1, q2, q3, q4, _⟩ := hr.edge c hc
    obtain ⟨r1, r2, r3⟩ := rep_removeEdge hr σ a b hc hf
    refine ⟨c.id, e, q1, q2.trans hs, q3.trans hd, by rw [r1, q4], r3, ?_, ?_, ?_⟩
    · cases hx : (g.removeEdge σ a b).1.getEdge c.id with
      | none => rfl
      | some x =>
        obtain ⟨c', hc', hid'⟩ := r2.edgeNone c.id (by
          simp only [getEdge] at hx; rw [hx]; rfl)
        rw [List.mem_filter] at hc'
        simp [hid'] at hc'
    · intro j e' hj he'
      obtain ⟨c', hc', hid'⟩ := hr.edgeNone j (by simp only [getEdge] at he'; rw [he']; rfl)
      subst hid'
      obtain ⟨x, s1, s2, s3, s4, _⟩ := hr.edge c' hc'
      rw [show g.edges.get? c'.id = some e' from he'] at s1
      injection s1 with s1
      subst s1
      obtain ⟨y, t1, t2, t3, t4, _⟩ := r2.edge c' (by
        rw [List.mem_filter]; exact ⟨hc', by simpa using hj⟩)
      exact ⟨y, t1, by rw [t2, s2], by rw [t3, s3], by rw [t4, s4]⟩
    · intro n dir l hn hl
      have hnp : n ∈ p.nodes := by
        rw [hr.nodeMem]
        simp only [getNode, Option.isSome_map] at hn
        exact hn
      rw [(hr.lists hnp dir).edgeIds] at hl
      injection hl with hl
      rw [(r2.lists hnp dir).edgeIds, at_filter, hl]

/-- C08: when there is no connection from `a` to `b`, disconnecting does nothing. -/
theorem C08_disconnect_absent (g : Graph N E) (hg : g.Reachable) (σ : IterOrder Id) (a b : Id)
    (hex : ¬ ∃ i e, g.getEdge i = some e ∧ e.fromNode = a ∧ e.toNode = b) :
    g.removeEdge σ a b = (g, none) := by
  obtain ⟨p, hr⟩ := hg.rep
  cases hf : g.findEdge σ a b with
  | none => exact removeEdge_none hf
  | some i =>
    exfalso
    obtain ⟨c, hc, hid, hs, hd⟩ := findEdge_some hr hf
    obtain ⟨e, q1, q2, q3, _⟩ := hr.edge c hc
    exact hex ⟨c.id, e, q1, q2.trans hs, q3.trans hd⟩

/-- The graph made by `demoCmds`. -/
def demoGraph : Graph Unit Nat :=
  match execAll (fun _ => .id) 0 Graph.empty demoCmds with
  | .ok g => g
  | .error _ => Graph.empty

theorem demoGraph_reachable : demoGraph.Reachable := ⟨fun _ => .id, demoCmds, by decide, rfl⟩

example : demoGraph.Reachable ∧
    (∃ i e, demoGraph.getEdge i = some e ∧ e.fromNode = 1 ∧ e.toNode = 2) ∧
    ¬ ∃ i e, demoGraph.getEdge i = some e ∧ e.fromNode = 2 ∧ e.toNode = 1 := by
  refine ⟨demoGraph_reachable, ⟨10, _, rfl, rfl, rfl⟩, ?_⟩
  rintro ⟨i, e, h, h1, _⟩
  have hall : demoGraph.edges.all (fun x => x.2.fromNode != 2) = true := rfl
  have := List.all_eq_true.mp hall _ (HMap.mem_of_get? h)
  simp [h1] at this

/-- C09: connecting aborts iff one of the two nodes is absent; otherwise it succeeds. -/
theorem C09_connect_aborts_iff (g : Graph N E) (hg : g.Reachable) (k a b : Id) (d : E)
    (hk : g.getEdge k = none) :
    (g.addEdge k a b d = .error .panic ↔ g.getNode a = none ∨ g.getNode b = none) ∧
    ((g.getNode a).isSome → (g.getNode b).isSome → ∃ g', g.addEdge k a b d = .ok g') := by
  obtain ⟨p, hr⟩ := hg.rep
  have hmem : ∀ i, i ∈ p.nodes ↔ (g.getNode i).isSome := by
    intro i; rw [hr.nodeMem, getNode, Option.isSome_map]
  have hok : (g.getNode a).isSome → (g.getNode b).isSome → ∃ g', g.addEdge k a b d = .ok g' := by
    intro ha hb
    obtain ⟨g', h1, _⟩ := rep_addEdge hr k a b d ((hmem a).mpr ha) ((hmem b).mpr hb) (by
      rintro c hc rfl
      obtain ⟨e, q1, _⟩ := hr.edge c hc
      rw [getEdge, q1] at hk
      cases hk)
    exact ⟨g', h1⟩
  refine ⟨⟨?_, ?_⟩, hok⟩
  · intro h
    by_contra hcon
    push Not at hcon
    obtain ⟨g', h'⟩ := hok (Option.isSome_iff_ne_none.mpr hcon.1)
      (Option.isSome_iff_ne_none.mpr hcon.2)
    rw [h] at h'
    cases h'
  · intro h
    apply addEdge_panic hr
    rcases h with h | h
    · left; rw [hmem, h]; simp
    · right; rw [hmem, h]; simp

/-- C09: adding a node aborts iff its id is present. -/
theorem C09_add_node_aborts_iff (g : Graph N E) (hg : g.Reachable) (i : Id) (d : N) :
    (g.addNode i d = .error .panic ↔ (g.getNode i).isSome) ∧
    (g.getNode i = none → ∃ g', g.addNode i d = .ok g') := by
  obtain ⟨p, hr⟩ := hg.rep
  have hmem : i ∈ p.nodes ↔ (g.getNode i).isSome := by
    rw [hr.nodeMem, getNode, Option.isSome_map]
  have hok : g.getNode i = none → ∃ g', g.addNode i d = .ok g' := by
    intro h
    obtain ⟨g', h1, _⟩ := rep_addNode hr i d (by rw [hmem, h]; simp)
    exact ⟨g', h1⟩
  refine ⟨⟨?_, fun h => addNode_panic hr i d (hmem.mpr h)⟩, hok⟩
  intro h
  by_contra hcon
  obtain ⟨g', h'⟩ := hok (by simpa using hcon)
  rw [h] at h'
  cases h'

/-- C09: removing a node aborts iff it is present and still has a connection (in either
direction). -/
theorem C09_remove_node_aborts_iff (g : Graph N E) (hg : g.Reachable) (i : Id) :
    (g.removeNode i = .error .panic ↔
      ∃ k e, g.getEdge k = some e ∧ (e.fromNode = i ∨ e.toNode = i)) ∧
    ((∀ k e, g.getEdge k = some e → e.fromNode ≠ i ∧ e.toNode ≠ i) →
      ∃ g', g.removeNode i = .ok (g', g.getNode i) ∧ g'.getNode i = none ∧
        ∀ j, j ≠ i → g'.getNode j = g.getNode j) := by
  obtain ⟨p, hr⟩ := hg.rep
  have hok : (∀ k e, g.getEdge k = some e → e.fromNode ≠ i ∧ e.toNode ≠ i) →
      ∃ g', g.removeNode i = .ok (g', g.getNode i) ∧ g'.getNode i = none ∧
        ∀ j, j ≠ i → g'.getNode j = g.getNode j := by
    intro h
    obtain ⟨g', h1, _, h3⟩ := rep_removeNode hr i (by
      intro c hc
      obtain ⟨e, q1, q2, q3, _⟩ := hr.edge c hc
      rw [← q2, ← q3]
      exact h c.id e q1)
    exact ⟨g', h1, by rw [h3, if_pos rfl], fun j hj => by rw [h3, if_neg hj]⟩
  refine ⟨⟨?_, ?_⟩, hok⟩
  · intro h
    by_contra hcon
    push Not at hcon
    obtain ⟨g', h', _⟩ := hok hcon
    rw [h] at h'
    cases h'
  · rintro ⟨k, e, he, h⟩
    obtain ⟨c, hc, hid⟩ := hr.edgeNone k (by simp only [getEdge] at he; rw [he]; rfl)
    obtain ⟨e', q1, q2, q3, _⟩ := hr.edge c hc
    rw [hid, show g.edges.get? k = some e from he] at q1
    injection q1 with q1
    subst q1
    exact removeNode_panic hr i c hc (by rw [← q2, ← q3]; exact h)

example : demoGraph.Reachable ∧ demoGraph.getEdge 99 = none ∧ demoGraph.getNode 4 = none ∧
    (demoGraph.getNode 1).isSome ∧ demoGraph.removeNode 1 = .error .panic :=
  ⟨demoGraph_reachable, rfl, rfl, rfl, rfl⟩

end Graph
end Rawdio
