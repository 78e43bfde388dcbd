import Verif.Lemmas.EngineSplit

/-! Helper lemmas: when a command fails, and the channel of disposed nodes. -/

namespace Rawdio
namespace Processor

open DspGraph

variable {S P C : Type}

theorem error_bind {α β : Type} {x : Res α} {e : Fault} {f : α → Res β} (h : x = .error e) :
    (x >>= f) = .error e := by
  subst h; rfl

/-- What comes of a command. -/
theorem apply_cases [Zero S] [Add S] {ops : NodeOps S P C} {mf mc sr : Nat}
    {E : Processor S P} (hE : EInv ops mf mc sr E) {V : View P} (hV : Looks E mf mc sr V)
    (c : Command P C) (luck : Luck)
    (hch : ∀ i r, c = .change i r → ∀ d, V.node i = some d → ∃ s', ops.change d.state r = .ok s') :
    (Command.Refused V c ∧ ¬ (Command.Disposes V c ∧ 512 ≤ E.graph.garbage - luck.collected) ∧
      E.apply ops (c, luck) = .error .panic) ∨
    (¬ Command.Refused V c ∧ (Command.Disposes V c ∧ 512 ≤ E.graph.garbage - luck.collected) ∧
      E.apply ops (c, luck) = .error .block) ∨
    (¬ Command.Refused V c ∧ ¬ (Command.Disposes V c ∧ 512 ≤ E.graph.garbage - luck.collected) ∧
      ∃ E', E.apply ops (c, luck) = .ok E') := by
  have hr := hV.inv.rep
  cases c with
  | start => exact .inr (.inr ⟨id, fun h => h.1, _, rfl⟩)
  | stop => exact .inr (.inr ⟨id, fun h => h.1, _, rfl⟩)
  | removeConnection k => exact .inr (.inr ⟨id, fun h => h.1, _, rfl⟩)
  | connectToOutput k => exact .inr (.inr ⟨id, fun h => h.1, _, rfl⟩)
  | connectToInput k => exact .inr (.inr ⟨id, fun h => h.1, _, rfl⟩)
  | change i r =>
    refine .inr (.inr ⟨id, fun h => h.1, ?_⟩)
    cases hn : E.graph.graph.getNode i with
    | none =>
      have : E.graph.changeParameter ops i r = .ok E.graph := by
        unfold changeParameter; rw [hn]
      exact ⟨_, ok_bind this⟩
    | some d =>
      obtain ⟨s', hs⟩ := hch i r rfl d (by rw [← hV.node]; exact hn)
      have : E.graph.changeParameter ops i r = .ok { E.graph with
          graph := E.graph.graph.setNode i { d with state := s' } } := by
        unfold changeParameter; rw [hn]
        exact ok_bind hs
      exact ⟨_, ok_bind this⟩
  | addDsp d =>
    by_cases hd : d.id ∈ V.patch.nodes
    · exact .inl ⟨hd, fun h => h.1, error_bind (error_bind (Graph.addNode_panic hr _ _ hd))⟩
    · obtain ⟨g', h1, _⟩ := Graph.rep_addNode hr d.id d hd
      exact .inr (.inr ⟨hd, fun h => h.1, _, ok_bind (ok_bind h1)⟩)
  | addConnection k =>
    by_cases hd : k.source.dsp ∉ V.patch.nodes ∨ k.destination.dsp ∉ V.patch.nodes
    · exact .inl ⟨hd, fun h => h.1, error_bind (error_bind (Graph.addEdge_panic hr _ _ _ _ hd))⟩
    · have hd' := hd
      push Not at hd'
      have hk : ∀ c ∈ V.patch.conns, c.id ≠ E.nextId + luck.gap := by
        intro c hc h
        obtain ⟨e, q1, _⟩ := hr.edge c hc
        have := hE.ids c.id e q1
        rw [h] at this
        exact absurd this (Nat.not_lt.mpr (Nat.le_add_right _ _))
      obtain ⟨g', h1, _⟩ := Graph.rep_addEdge hr (E.nextId + luck.gap) _ _ k hd'.1 hd'.2 hk
      exact .inr (.inr ⟨hd, fun h => h.1, _, ok_bind (ok_bind h1)⟩)
  | removeDsp i =>
    by_cases hd : ∃ k ∈ V.patch.conns, k.src = i ∨ k.dst = i
    · refine .inl ⟨hd, ?_, ?_⟩
      · rintro ⟨⟨_, h1⟩, _⟩
        obtain ⟨k, hk, h2⟩ := hd
        have := h1 k hk
        rcases h2 with h2 | h2
        · exact this.1 h2
        · exact this.2 h2
      · obtain ⟨k, hk, h2⟩ := hd
        exact error_bind (error_bind (Graph.removeNode_panic hr i k hk h2))
    · have hd' : ∀ k ∈ V.patch.conns, k.src ≠ i ∧ k.dst ≠ i := by
        intro k hk
        constructor <;> intro h
        · exact hd ⟨k, hk, .inl h⟩
        · exact hd ⟨k, hk, .inr h⟩
      obtain ⟨g', h1, _⟩ := Graph.rep_removeNode hr i hd'
      by_cases hi : i ∈ V.patch.nodes
      · obtain ⟨d, hn⟩ := (hr.shows.nodes i).mp hi
        rw [hn] at h1
        by_cases hf : E.graph.garbage - luck.collected < garbageCapacity
        · refine .inr (.inr ⟨hd, fun h => by have := h.2; change _ < 512 at hf; omega, ?_⟩)
          exact ⟨_, ok_bind ((ok_bind h1).trans (if_pos hf))⟩
        · refine .inr (.inl ⟨hd, ⟨⟨hi, hd'⟩, by change ¬ (_ < 512) at hf; omega⟩, ?_⟩)
          exact error_bind ((ok_bind h1).trans (if_neg hf))
      · have hn : E.graph.graph.getNode i = none := by
          cases hn : E.graph.graph.getNode i with
          | none => rfl
          | some d => exact absurd ((hr.shows.nodes i).mpr ⟨d, hn⟩) hi
        rw [hn] at h1
        exact .inr (.inr ⟨hd, fun h => hi h.1.1, _, ok_bind (ok_bind h1)⟩)

/-- Each command disposes of at most one node. -/
theorem apply_garbage {ops : NodeOps S P C} {E E' : Processor S P} {c : Command P C × Luck}
    (h : E.apply ops c = .ok E') :
    E'.graph.garbage ≤ E.graph.garbage + Command.removals [c.1] := by
  obtain ⟨c, luck⟩ := c
  cases c with
  | start => injection h with h; subst h; exact Nat.le_add_right _ _
  | stop => injection h with h; subst h; exact Nat.le_add_right _ _
  | removeConnection k => injection h with h; subst h; exact Nat.le_add_right _ _
  | connectToOutput k => injection h with h; subst h; exact Nat.le_add_right _ _
  | connectToInput k => injection h with h; subst h; exact Nat.le_add_right _ _
  | addDsp d =>
    obtain ⟨G, h1, h2⟩ := bind_ok h
    injection h2 with h2
    subst h2
    obtain ⟨g, h3, h4⟩ := bind_ok h1
    injection h4 with h4
    subst h4
    exact Nat.le_add_right _ _
  | addConnection d =>
    obtain ⟨G, h1, h2⟩ := bind_ok h
    injection h2 with h2
    subst h2
    obtain ⟨g, h3, h4⟩ := bind_ok h1
    injection h4 with h4
    subst h4
    exact Nat.le_add_right _ _
  | change i r =>
    obtain ⟨G, h1, h2⟩ := bind_ok h
    injection h2 with h2
    subst h2
    unfold changeParameter at h1
    split at h1
    · injection h1 with h1; subst h1; exact Nat.le_add_right _ _
    · obtain ⟨s, _, h4⟩ := bind_ok h1
      injection h4 with h4
      subst h4
      exact Nat.le_add_right _ _
  | removeDsp i =>
    obtain ⟨G, h1, h2⟩ := bind_ok h
    injection h2 with h2
    subst h2
    obtain ⟨⟨g, n⟩, h3, h4⟩ := bind_ok h1
    change G.garbage ≤ E.graph.garbage + 1
    cases n with
    | none => injection h4 with h4; subst h4; change E.graph.garbage - luck.collected ≤ _; omega
    | some d =>
      by_cases hf : E.graph.garbage - luck.collected < garbageCapacity
      · have h5 := (if_pos hf).symm.trans h4
        injection h5 with h5
        subst h5
        change E.graph.garbage - luck.collected + 1 ≤ _
        omega
      · have h5 := (if_neg hf).symm.trans h4
        cases h5

theorem removals_append (a b : List (Command P C)) :
    Command.removals (a ++ b) = Command.removals a + Command.removals b := List.countP_append

theorem processCommands_garbage {ops : NodeOps S P C} (cs : List (Command P C × Luck)) :
    ∀ (E E' : Processor S P), E.processCommands ops cs = .ok E' →
    E'.graph.garbage ≤ E.graph.garbage + Command.removals (cs.map Prod.fst) := by
  induction cs with
  | nil => intro E E' h; injection h with h; subst h; exact Nat.le_add_right _ _
  | cons c cs ih =>
    intro E E' h
    obtain ⟨E1, h1, h2⟩ := foldlM_cons_ok h
    have a1 := apply_garbage h1
    have a2 := ih _ _ h2
    have : Command.removals ((c :: cs).map Prod.fst) =
      Command.removals [c.1] + Command.removals (cs.map Prod.fst) := removals_append [c.1] _
    omega

theorem process_garbage [Zero S] [Add S] {ops : NodeOps S P C} {env : Env} {G G' : DspGraph S P}
    {input output o' : Buf S} {t : Int} (h : G.process ops env input output t = .ok (o', G')) :
    G'.garbage = G.garbage := by
  unfold DspGraph.process at h
  obtain ⟨G1, h1, h⟩ := bind_ok h
  obtain ⟨p1, _, h⟩ := bind_ok h
  obtain ⟨r, _, h⟩ := bind_ok h
  obtain ⟨o, _, h⟩ := bind_ok h
  obtain ⟨p2, _, h⟩ := bind_ok h
  injection h with h
  obtain ⟨_, rfl⟩ := Prod.mk.inj h
  unfold sortGraph at h1
  split at h1
  · obtain ⟨order, _, h2⟩ := bind_ok h1
    injection h2 with h2
    subst h2
    rfl
  · injection h1 with h1
    subst h1
    rfl

theorem loop_garbage [Zero S] [Add S] {ops : NodeOps S P C} {env : Nat → Env} {mf sr : Nat}
    {now : Int} {input : Buf S} : ∀ (fuel offset : Nat) (G G' : DspGraph S P) (output o' : Buf S),
    processLoop (runGraph ops env) mf sr now input fuel offset G output = .ok (o', G') →
    G'.garbage = G.garbage := by
  intro fuel
  induction fuel with
  | zero => intro _ _ _ _ _ h; cases h
  | succ fuel ih =>
    intro offset G G' output o' h
    unfold processLoop at h
    split at h
    · obtain ⟨i1, _, h⟩ := bind_ok h
      obtain ⟨o1, _, h⟩ := bind_ok h
      obtain ⟨⟨o2, G2⟩, h1, h⟩ := bind_ok h
      exact (ih _ _ _ _ _ h).trans (process_garbage h1)
    · injection h with h
      obtain ⟨_, rfl⟩ := Prod.mk.inj h
      rfl

theorem render_garbage [Zero S] [Add S] {ops : NodeOps S P C} {env : Nat → Env}
    {E E' : Processor S P} {input output o' : Buf S}
    (h : E.render ops env input output = .ok (o', E')) : E'.graph.garbage = E.graph.garbage := by
  cases hs : E.started with
  | false =>
    obtain ⟨rfl, rfl⟩ := render_stopped hs h
    rfl
  | true =>
    obtain ⟨G', l1, rfl⟩ := render_started hs h
    exact loop_garbage _ _ _ _ _ _ l1

theorem calls_garbage [Zero S] [Add S] {ops : NodeOps S P C} (ks : List (Call S P C)) :
    ∀ (E E' : Processor S P), calls ops E ks = .ok E' →
    E'.graph.garbage ≤ E.graph.garbage + Command.removals (history ks) := by
  induction ks with
  | nil => intro E E' h; injection h with h; subst h; exact Nat.le_add_right _ _
  | cons k ks ih =>
    intro E E' h
    obtain ⟨⟨o, E1⟩, h1, h2⟩ := bind_ok h
    have a2 := ih _ _ h2
    obtain ⟨_, _, h1⟩ := bind_ok h1
    obtain ⟨E0, h3, h4⟩ := bind_ok h1
    have a1 := processCommands_garbage _ _ _ h3
    have a3 := render_garbage h4
    have : Command.removals (history (k :: ks)) =
      Command.removals (k.commands.map Prod.fst) + Command.removals (history ks) :=
      removals_append _ _
    change E'.graph.garbage ≤ E1.graph.garbage + _ at a2
    omega

/-- Commands that remove few nodes do not wait. -/
theorem processCommands_no_wait [Zero S] [Add S] {ops : NodeOps S P C} {mf mc sr : Nat} (hm : 0 < mf)
    (hch : ∀ s r, ∃ s', ops.change s r = .ok s') (cs : List (Command P C × Luck)) :
    ∀ (E : Processor S P) (V : View P), EInv ops mf mc sr E → Looks E mf mc sr V →
    (∀ c ∈ cs, c.1.Api) → E.graph.garbage + Command.removals (cs.map Prod.fst) ≤ 512 →
    E.processCommands ops cs ≠ .error .block := by
  induction cs with
  | nil => intro E V _ _ _ _ h; cases h
  | cons c cs ih =>
    intro E V hE hV hapi hsize h
    have hs : Command.removals ((c :: cs).map Prod.fst) =
      Command.removals [c.1] + Command.removals (cs.map Prod.fst) := removals_append [c.1] _
    obtain ⟨c, luck⟩ := c
    rcases apply_cases hE hV c luck (fun _ _ _ d _ => hch d.state _) with ⟨_, _, h1⟩ | ⟨_, ⟨h2, h3⟩, h1⟩ | ⟨_, _, E1, h1⟩
    · have : processCommands ops E ((c, luck) :: cs) = .error .panic := error_bind h1
      rw [this] at h
      cases h
    · cases c with
      | removeDsp i =>
        have : Command.removals [(Command.removeDsp i : Command P C)] = 1 := rfl
        rw [hs] at hsize
        change E.graph.garbage + (Command.removals [(Command.removeDsp i : Command P C)] + _) ≤ _
          at hsize
        omega
      | _ => exact h2
    · have : processCommands ops E ((c, luck) :: cs) = processCommands ops E1 cs := ok_bind h1
      rw [this] at h
      obtain ⟨W, _, hW⟩ := apply_looks hE hV (hapi _ List.mem_cons_self) h1
      have a1 := apply_garbage h1
      refine ih E1 W (apply_inv hm hE (hapi _ List.mem_cons_self) h1) hW
        (fun x hx => hapi x (List.mem_cons_of_mem _ hx)) ?_ h
      omega

end Processor
end Rawdio
