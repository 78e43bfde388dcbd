import Verif.Lemmas.Graph

/-! Helper lemmas about sequences of graph edits. -/

namespace Rawdio

namespace Graph

variable {N E : Type}

theorem filter_id_split {before after : List (Conn E)} {c : Conn E}
    (h : ((before ++ c :: after).map Conn.id).Nodup) :
    (before ++ c :: after).filter (fun x => x.id != c.id) = before ++ after := by
  rw [List.map_append, List.map_cons, List.nodup_append, List.nodup_cons] at h
  obtain ⟨_, ⟨h2, _⟩, h4⟩ := h
  rw [List.filter_append, List.filter_cons]
  simp only [bne_self_eq_false, Bool.false_eq_true, if_false]
  congr 1
  · rw [List.filter_eq_self]
    intro x hx
    have := h4 x.id (List.mem_map_of_mem (f := Conn.id) hx) c.id (List.mem_cons_self ..)
    simpa using this
  · rw [List.filter_eq_self]
    intro x hx
    have : x.id ≠ c.id := by
      intro h
      exact h2 (h ▸ List.mem_map_of_mem (f := Conn.id) hx)
    simpa using this

/-- One edit request: the invariant is kept and the patch changes as specified. -/
theorem exec_step {g : Graph N E} {p : Patch E} (h : Rep g p) (σ : IterOrder Id)
    (c : GraphCmd N E) (hk : ∀ k a b d, c = .connect k a b d → ∀ x ∈ p.conns, x.id ≠ k)
    {g' : Graph N E} (hg : g.exec σ c = .ok g') :
    ∃ p', Patch.Step p c p' ∧ Rep g' p' := by
  cases c with
  | addNode i d =>
    by_cases hi : i ∈ p.nodes
    · rw [exec, addNode_panic h i d hi] at hg; cases hg
    · obtain ⟨g'', h1, h2, _⟩ := rep_addNode h i d hi
      rw [exec, h1] at hg
      injection hg with hg
      subst hg
      exact ⟨_, .addNode p i d hi, h2⟩
  | removeNode i =>
    by_cases hi : ∀ c ∈ p.conns, c.src ≠ i ∧ c.dst ≠ i
    · obtain ⟨g'', h1, h2, _⟩ := rep_removeNode h i hi
      simp only [exec, h1, bind, Except.bind, pure, Except.pure] at hg
      injection hg with hg
      subst hg
      exact ⟨_, .removeNode p i hi, h2⟩
    · push Not at hi
      obtain ⟨c, hc, hci⟩ := hi
      have : c.src = i ∨ c.dst = i := by
        by_cases hs : c.src = i
        · exact .inl hs
        · exact .inr (hci hs)
      simp only [exec, removeNode_panic h i c hc this, bind, Except.bind] at hg
      cases hg
  | connect k a b d =>
    by_cases hab : a ∈ p.nodes ∧ b ∈ p.nodes
    · obtain ⟨g'', h1, h2, _⟩ := rep_addEdge h k a b d hab.1 hab.2 (hk k a b d rfl)
      rw [exec, h1] at hg
      injection hg with hg
      subst hg
      exact ⟨_, .connect p k a b d hab.1 hab.2, h2⟩
    · rw [exec, addEdge_panic h k a b d (by
        by_cases ha : a ∈ p.nodes
        · exact .inr (fun hb => hab ⟨ha, hb⟩)
        · exact .inl ha)] at hg
      cases hg
  | disconnect a b =>
    simp only [exec] at hg
    injection hg with hg
    subst hg
    cases hf : g.findEdge σ a b with
    | none =>
      rw [removeEdge_none hf]
      exact ⟨p, .disconnectNone p a b (findEdge_none h hf), h⟩
    | some i =>
      obtain ⟨c, hc, hid, hs, hd⟩ := findEdge_some h hf
      subst hid
      obtain ⟨before, after, hsplit⟩ := List.append_of_mem hc
      obtain ⟨_, h2, _⟩ := rep_removeEdge h σ a b hc hf
      refine ⟨_, .disconnect p a b before after c hs hd hsplit, ?_⟩
      rw [hsplit, filter_id_split (by rw [← hsplit]; exact h.nodupC)] at h2
      exact h2

theorem step_ids {p q : Patch E} {c : GraphCmd N E} (h : Patch.Step p c q) :
    ∀ x ∈ q.conns, x ∈ p.conns ∨ ∃ k a b d, c = .connect k a b d ∧ x.id = k := by
  intro x hx
  cases h with
  | addNode => exact .inl hx
  | removeNode => exact .inl hx
  | connect k a b d _ _ =>
    rw [List.mem_append, List.mem_singleton] at hx
    rcases hx with hx | rfl
    · exact .inl hx
    · exact .inr ⟨k, a, b, d, rfl, rfl⟩
  | disconnect a b before after c _ _ hsplit =>
    left
    rw [hsplit]
    rw [List.mem_append] at hx
    rcases hx with hx | hx
    · exact List.mem_append_left _ hx
    · exact List.mem_append_right _ (List.mem_cons_of_mem _ hx)
  | disconnectNone => exact .inl hx

theorem newIds_cons_connect (k a b : Id) (d : E) (cs : List (GraphCmd N E)) :
    GraphCmd.newIds (.connect k a b d :: cs) = k :: GraphCmd.newIds cs := rfl

theorem newIds_sub (c : GraphCmd N E) (cs : List (GraphCmd N E)) {k : Id}
    (h : k ∈ GraphCmd.newIds cs) : k ∈ GraphCmd.newIds (c :: cs) := by
  cases c <;> simp [GraphCmd.newIds, h]

theorem newIds_nodup (c : GraphCmd N E) (cs : List (GraphCmd N E))
    (h : (GraphCmd.newIds (c :: cs)).Nodup) : (GraphCmd.newIds cs).Nodup := by
  cases c <;> simp_all [GraphCmd.newIds]

theorem execAll_rep (σ : Nat → IterOrder Id) : ∀ (cs : List (GraphCmd N E)) (t : Nat)
    (g g' : Graph N E) (p : Patch E), Rep g p → (GraphCmd.newIds cs).Nodup →
    (∀ x ∈ p.conns, x.id ∉ GraphCmd.newIds cs) → execAll σ t g cs = .ok g' →
    ∃ p', Patch.Steps p cs p' ∧ Rep g' p' := by
  intro cs
  induction cs with
  | nil =>
    intro t g g' p h _ _ hg
    simp only [execAll] at hg
    injection hg with hg
    subst hg
    exact ⟨p, .nil p, h⟩
  | cons c cs ih =>
    intro t g g' p h hnd hfresh hg
    simp only [execAll, bind, Except.bind] at hg
    split at hg
    · cases hg
    · rename_i g1 h1
      obtain ⟨p1, hs, hr⟩ := exec_step h (σ t) c (by
        rintro k a b d rfl x hx hxk
        apply hfresh x hx
        rw [newIds_cons_connect, hxk]
        exact List.mem_cons_self ..) h1
      obtain ⟨p2, hs2, hr2⟩ := ih (t + 1) g1 g' p1 hr (newIds_nodup c cs hnd) (by
        intro x hx hxk
        rcases step_ids hs x hx with hxp | ⟨k, a, b, d, rfl, hk⟩
        · exact hfresh x hxp (newIds_sub c cs hxk)
        · rw [newIds_cons_connect, List.nodup_cons] at hnd
          exact hnd.1 (hk ▸ hxk)) hg
      exact ⟨p2, .cons hs hs2, hr2⟩

/-- A graph that some sequence of edit requests produces. -/
def Reachable (g : Graph N E) : Prop :=
  ∃ (σ : Nat → IterOrder Id) (cs : List (GraphCmd N E)), (GraphCmd.newIds cs).Nodup ∧
    execAll σ 0 empty cs = .ok g

theorem Reachable.rep {g : Graph N E} (h : Reachable g) : ∃ p : Patch E, Rep g p := by
  obtain ⟨σ, cs, h1, h2⟩ := h
  obtain ⟨p, _, hr⟩ := execAll_rep σ cs 0 empty g Patch.empty rep_empty h1
    (by intro x hx; simp [Patch.empty] at hx) h2
  exact ⟨p, hr⟩

end Graph
end Rawdio
