import Verif.Lemmas.Engine

/-! Helper lemmas: what rendering cannot change, and the threads. -/

namespace Rawdio

variable {S P C N M E : Type}

/-! ## Graphs with the node data replaced -/

namespace HMap

variable {K V W : Type} [DecidableEq K]

theorem mapVals_remove (m : HMap K V) (f : V → W) (i : K) :
    (m.remove i).mapVals f = (m.mapVals f).remove i := by
  simp only [remove, mapVals, List.filter_map]
  rfl

theorem mapVals_insert (m : HMap K V) (f : V → W) (i : K) (v : V) :
    (m.insert i v).mapVals f = (m.mapVals f).insert i (f v) := by
  simp only [insert, ← mapVals_remove]
  rfl

theorem mapVals_update (m : HMap K V) (f : V → W) (i : K) (u : V → V) (u' : W → W)
    (h : ∀ v, m.get? i = some v → f (u v) = u' (f v)) (hn : m.keys.Nodup) :
    (m.update i u).mapVals f = (m.mapVals f).update i u' := by
  simp only [update, mapVals, List.map_map]
  apply List.map_congr_left
  intro e he
  simp only [Function.comp]
  by_cases hi : e.1 = i
  · rw [if_pos hi, if_pos hi]
    simp only
    rw [h e.2 (by rw [← hi]; exact get?_of_mem hn he)]
  · rw [if_neg hi, if_neg hi]

theorem mapVals_update' (m : HMap K V) (f : V → W) (i : K) (u : V → V) (u' : W → W)
    (h : ∀ v, f (u v) = u' (f v)) : (m.update i u).mapVals f = (m.mapVals f).update i u' := by
  simp only [update, mapVals, List.map_map]
  apply List.map_congr_left
  intro e he
  simp only [Function.comp]
  by_cases hi : e.1 = i
  · rw [if_pos hi, if_pos hi]
    simp only
    rw [h e.2]
  · rw [if_neg hi, if_neg hi]

theorem mapVals_mapVals {X : Type} (m : HMap K V) (f : V → W) (g : W → X) :
    (m.mapVals f).mapVals g = m.mapVals (g ∘ f) := by
  simp only [mapVals, List.map_map]
  rfl

theorem contains_mapVals (m : HMap K V) (f : V → W) (i : K) :
    (m.mapVals f).contains i = m.contains i := by
  unfold contains
  rw [get?_mapVals]
  cases m.get? i <;> rfl

end HMap

namespace Graph

/-- A node with its data replaced. -/
def Node.mapData (f : N → M) (n : Node N) : Node M := ⟨f n.data, n.outgoing, n.incoming⟩

/-- A graph with the data of every node replaced. -/
def mapNodes (f : N → M) (g : Graph N E) : Graph M E := ⟨g.nodes.mapVals (Node.mapData f), g.edges⟩

theorem edgeNext_mapNodes (f : N → M) (g : Graph N E) (n : Id) (dir : Direction) (cur : Option Id) :
    (g.mapNodes f).edgeNext n dir cur = g.edgeNext n dir cur := by
  unfold edgeNext mapNodes
  simp only [HMap.get?_mapVals]
  cases g.nodes.get? n with
  | none => rfl
  | some n =>
    simp only [Option.map_some]
    cases cur with
    | some e => rfl
    | none => cases dir <;> rfl

theorem edgeWalk_mapNodes (f : N → M) (g : Graph N E) (n : Id) (dir : Direction) (fuel : Nat) :
    ∀ cur, (g.mapNodes f).edgeWalk n dir fuel cur = g.edgeWalk n dir fuel cur := by
  induction fuel with
  | zero => intro cur; rfl
  | succ fuel ih =>
    intro cur
    unfold edgeWalk
    rw [edgeNext_mapNodes]
    cases g.edgeNext n dir cur with
    | none => rfl
    | some e => simp only [ih]

theorem edgeIds_mapNodes (f : N → M) (g : Graph N E) (n : Id) (dir : Direction) :
    (g.mapNodes f).edgeIds n dir = g.edgeIds n dir := edgeWalk_mapNodes f g n dir _ _

theorem link_mapNodes (f : N → M) (g : Graph N E) (n : Id) (dir : Direction) (k : Id) :
    (g.mapNodes f).link n dir k = (g.link n dir k).map (mapNodes f) := by
  unfold link lastEdgeId
  rw [edgeIds_mapNodes]
  cases g.edgeIds n dir with
  | error e => rfl
  | ok ids =>
    simp only [bind, Except.bind, pure, Except.pure]
    cases ids.getLast? with
    | some last => rfl
    | none =>
      simp only [Except.map, mapNodes]
      rw [HMap.mapVals_update' g.nodes (Node.mapData f) n (Node.setFirst dir (some k))
        (Node.setFirst dir (some k)) (by intro v; cases dir <;> rfl)]

theorem addNode_mapNodes (f : N → M) (g : Graph N E) (i : Id) (d : N) :
    (g.mapNodes f).addNode i (f d) = (g.addNode i d).map (mapNodes f) := by
  unfold addNode
  rw [show (g.mapNodes f).nodes.contains i = g.nodes.contains i from HMap.contains_mapVals ..]
  cases g.nodes.contains i with
  | true => rfl
  | false =>
    simp only [Bool.false_eq_true, if_false, Except.map, mapNodes, HMap.mapVals_insert]
    rfl

theorem removeNode_mapNodes (f : N → M) (g : Graph N E) (i : Id) :
    (g.mapNodes f).removeNode i =
      (g.removeNode i).map (fun r => (r.1.mapNodes f, r.2.map f)) := by
  unfold removeNode
  rw [show (g.mapNodes f).nodes.get? i = (g.nodes.get? i).map (Node.mapData f) from
    HMap.get?_mapVals ..]
  cases g.nodes.get? i with
  | none => rfl
  | some n =>
    simp only [Option.map_some]
    rw [show (Node.mapData f n).incoming = n.incoming from rfl,
      show (Node.mapData f n).outgoing = n.outgoing from rfl]
    cases n.incoming.isSome with
    | true => rfl
    | false =>
      cases n.outgoing.isSome with
      | true => rfl
      | false =>
        simp only [Bool.false_eq_true, if_false, Except.map, mapNodes, HMap.mapVals_remove,
          Option.map_some]
        rfl

theorem addEdge_mapNodes (f : N → M) (g : Graph N E) (k a b : Id) (d : E) :
    (g.mapNodes f).addEdge k a b d = (g.addEdge k a b d).map (mapNodes f) := by
  unfold addEdge
  rw [show (g.mapNodes f).nodes.contains a = g.nodes.contains a from HMap.contains_mapVals ..,
    show (g.mapNodes f).nodes.contains b = g.nodes.contains b from HMap.contains_mapVals ..]
  cases g.nodes.contains a with
  | false => rfl
  | true =>
    cases g.nodes.contains b with
    | false => rfl
    | true =>
      simp only [Bool.not_true, Bool.false_eq_true, if_false, pure_bind]
      rw [link_mapNodes]
      cases g.link a .outgoing k with
      | error e => rfl
      | ok g1 =>
        simp only [Except.map, bind, Except.bind]
        rw [link_mapNodes]
        cases g1.link b .incoming k with
        | error e => rfl
        | ok g2 => rfl

theorem replaceConnections_mapNodes (f : N → M) (g : Graph N E) (dir : Direction) (k : Id)
    (r : Option Id) :
    (g.mapNodes f).replaceConnections dir k r = (g.replaceConnections dir k r).mapNodes f := by
  unfold replaceConnections mapNodes
  simp only [HMap.mapVals_mapVals]
  congr 2
  funext n
  obtain ⟨d, o, i⟩ := n
  cases dir
  · by_cases h : o = some k <;>
      simp [Function.comp, Node.replaceFirst, Node.mapData, firstOf, h, Node.setFirst]
  · by_cases h : i = some k <;>
      simp [Function.comp, Node.replaceFirst, Node.mapData, firstOf, h, Node.setFirst]

theorem removeEdge_mapNodes (f : N → M) (g : Graph N E) (σ : IterOrder Id) (a b : Id) :
    ((g.mapNodes f).removeEdge σ a b).1 = (g.removeEdge σ a b).1.mapNodes f := by
  unfold removeEdge
  rw [show (g.mapNodes f).findEdge σ a b = g.findEdge σ a b from rfl]
  cases g.findEdge σ a b with
  | none => rfl
  | some i =>
    simp only
    rw [show (g.mapNodes f).edges = g.edges from rfl]
    cases g.edges.get? i with
    | none => rfl
    | some e =>
      simp only
      rw [← replaceConnections_mapNodes, ← replaceConnections_mapNodes]
      rfl

theorem setNode_mapNodes (f : N → M) (g : Graph N E) (i : Id) (d d' : N)
    (h : g.getNode i = some d) (hd : f d' = f d) (hn : g.nodes.keys.Nodup) :
    (g.setNode i d').mapNodes f = g.mapNodes f := by
  unfold setNode mapNodes
  simp only
  congr 1
  rw [HMap.mapVals_update g.nodes (Node.mapData f) i (Node.setData d') id ?_ hn]
  · simp only [HMap.update]
    conv_rhs => rw [← List.map_id (g.nodes.mapVals (Node.mapData f))]
    apply List.map_congr_left
    intro e _
    split_ifs <;> rfl
  · intro v hv
    have : v.data = d := by
      simp only [getNode, hv, Option.map_some, Option.some.injEq] at h
      exact h
    simp only [id, Node.mapData, Node.setData, hd, this]

theorem getNode_mapNodes (f : N → M) (g : Graph N E) (i : Id) :
    (g.mapNodes f).getNode i = (g.getNode i).map f := by
  unfold getNode mapNodes
  simp only [HMap.get?_mapVals]
  cases g.nodes.get? i <;> rfl

end Graph

/-! ## What rendering cannot change -/

namespace Processor

open DspGraph

/-- A node without its state. -/
def bare (d : Dsp P) : Dsp Unit := ⟨d.id, d.inputCount, d.outputCount, ()⟩

theorem runNode_bare {ops : NodeOps S P C} {g g' : Graph (Dsp P) Connection} {i : Id}
    {output input o' : Buf S} {n : Nat} {t : Int} (hn : g.nodes.keys.Nodup)
    (h : runNode ops g i output input n t = .ok (o', g')) :
    g'.mapNodes bare = g.mapNodes bare ∧ g'.nodes.keys.Nodup := by
  unfold runNode at h
  cases hd : g.getNode i with
  | none =>
    rw [hd] at h
    injection h with h
    obtain ⟨_, rfl⟩ := Prod.mk.inj h
    exact ⟨rfl, hn⟩
  | some d =>
    rw [hd] at h
    obtain ⟨os, _, h⟩ := bind_ok h
    obtain ⟨is, _, h⟩ := bind_ok h
    obtain ⟨r, h1, h⟩ := bind_ok h
    injection h with h
    obtain ⟨_, rfl⟩ := Prod.mk.inj h
    have hr : bare r.2 = bare d := by
      unfold Dsp.processAudio at h1
      split_ifs at h1
      obtain ⟨x, _, h1⟩ := bind_ok h1
      obtain ⟨y, _, h1⟩ := bind_ok h1
      injection h1 with h1
      rw [← h1]
      rfl
    refine ⟨Graph.setNode_mapNodes bare g i d r.2 hd hr hn, ?_⟩
    change (g.nodes.update i _).keys.Nodup
    rw [HMap.keys_update]
    exact hn

theorem processDsp_bare [Zero S] [Add S] {ops : NodeOps S P C} {env : Env} {n : Nat} {t : Int}
    {s s' : Pools S × Graph (Dsp P) Connection} {i : Id} (hn : s.2.nodes.keys.Nodup)
    (h : processDsp ops env n t s i = .ok s') :
    s'.2.mapNodes bare = s.2.mapNodes bare ∧ s'.2.nodes.keys.Nodup := by
  unfold processDsp at h
  obtain ⟨o, _, h⟩ := bind_ok h
  obtain ⟨inp, _, h⟩ := bind_ok h
  obtain ⟨r, h1, h⟩ := bind_ok h
  have := runNode_bare hn h1
  have hs : s'.2 = r.2 := by
    simp only at h
    split_ifs at h
    · obtain ⟨p, _, h⟩ := bind_ok h
      injection h with h
      rw [← h]
    · injection h with h
      rw [← h]
  rw [hs]
  exact this

theorem fold_bare [Zero S] [Add S] {ops : NodeOps S P C} {env : Env} {n : Nat} {t : Int}
    (l : List Id) : ∀ (s s' : Pools S × Graph (Dsp P) Connection), s.2.nodes.keys.Nodup →
    l.foldlM (processDsp ops env n t) s = .ok s' →
    s'.2.mapNodes bare = s.2.mapNodes bare ∧ s'.2.nodes.keys.Nodup := by
  induction l with
  | nil => intro s s' hn h; injection h with h; subst h; exact ⟨rfl, hn⟩
  | cons i l ih =>
    intro s s' hn h
    obtain ⟨s1, h1, h2⟩ := foldlM_cons_ok h
    obtain ⟨a1, a2⟩ := processDsp_bare hn h1
    obtain ⟨b1, b2⟩ := ih _ _ a2 h2
    exact ⟨b1.trans a1, b2⟩

theorem process_bare [Zero S] [Add S] {ops : NodeOps S P C} {env : Env} {G G' : DspGraph S P}
    {input output o' : Buf S} {t : Int} (hn : G.graph.nodes.keys.Nodup)
    (h : G.process ops env input output t = .ok (o', G')) :
    G'.graph.mapNodes bare = G.graph.mapNodes bare ∧ G'.graph.nodes.keys.Nodup ∧
    G'.inputEndpoint = G.inputEndpoint ∧ G'.outputEndpoint = G.outputEndpoint := by
  unfold DspGraph.process at h
  obtain ⟨G1, h1, h⟩ := bind_ok h
  obtain ⟨pools, _, h⟩ := bind_ok h
  obtain ⟨r, h2, h⟩ := bind_ok h
  obtain ⟨o, _, h⟩ := bind_ok h
  obtain ⟨pools', _, h⟩ := bind_ok h
  injection h with h
  obtain ⟨_, rfl⟩ := Prod.mk.inj h
  have hG1 : G1.graph = G.graph ∧ G1.inputEndpoint = G.inputEndpoint ∧
      G1.outputEndpoint = G.outputEndpoint := by
    unfold sortGraph at h1
    split_ifs at h1
    · obtain ⟨order, _, h1⟩ := bind_ok h1
      injection h1 with h1
      rw [← h1]
      exact ⟨rfl, rfl, rfl⟩
    · injection h1 with h1
      rw [← h1]
      exact ⟨rfl, rfl, rfl⟩
  obtain ⟨a1, a2, a3⟩ := hG1
  obtain ⟨b1, b2⟩ := fold_bare _ _ _ (by rw [a1]; exact hn) h2
  exact ⟨b1.trans (by rw [a1]), b2, a2, a3⟩

theorem loop_bare [Zero S] [Add S] {ops : NodeOps S P C} {env : Nat → Env} {mf sr : Nat} {now : Int}
    {input : Buf S} (fuel : Nat) : ∀ (offset : Nat) (G G' : DspGraph S P) (output o' : Buf S),
    G.graph.nodes.keys.Nodup →
    processLoop (runGraph ops env) mf sr now input fuel offset G output = .ok (o', G') →
    G'.graph.mapNodes bare = G.graph.mapNodes bare ∧ G'.graph.nodes.keys.Nodup ∧
    G'.inputEndpoint = G.inputEndpoint ∧ G'.outputEndpoint = G.outputEndpoint := by
  induction fuel with
  | zero => intro offset G G' output o' _ h; cases h
  | succ fuel ih =>
    intro offset G G' output o' hn h
    unfold processLoop at h
    split_ifs at h
    · obtain ⟨i1, _, h⟩ := bind_ok h
      obtain ⟨o1, _, h⟩ := bind_ok h
      obtain ⟨⟨b, G1⟩, h1, h⟩ := bind_ok h
      obtain ⟨a1, a2, a3, a4⟩ := process_bare hn h1
      obtain ⟨b1, b2, b3, b4⟩ := ih _ _ _ _ _ a2 h
      exact ⟨b1.trans a1, b2, b3.trans a3, b4.trans a4⟩
    · injection h with h
      obtain ⟨_, rfl⟩ := Prod.mk.inj h
      exact ⟨rfl, hn, rfl, rfl⟩

/-- The part of an engine that only commands change. -/
structure Control where
  started : Bool
  input : Option Endpoint
  output : Option Endpoint
  graph : Graph (Dsp Unit) Connection
  nextId : Id

/-- The part of an engine that only commands change. -/
def control (E : Processor S P) : Control :=
  ⟨E.started, E.graph.inputEndpoint, E.graph.outputEndpoint, E.graph.graph.mapNodes bare, E.nextId⟩

/-- What a command does to it. -/
def Control.apply (K : Control) (c : Command P C × Luck) : Res Control :=
  match c.1 with
  | .start => .ok { K with started := true }
  | .stop => .ok { K with started := false }
  | .addDsp d => do
    let g ← K.graph.addNode d.id (bare d)
    return { K with graph := g }
  | .removeDsp i => do
    let r ← K.graph.removeNode i
    return { K with graph := r.1 }
  | .change _ _ => .ok K
  | .addConnection k => do
    let g ← K.graph.addEdge (K.nextId + c.2.gap) k.source.dsp k.destination.dsp k
    return { K with graph := g, nextId := K.nextId + c.2.gap + 1 }
  | .removeConnection k =>
    .ok { K with graph := (K.graph.removeEdge c.2.order k.source.dsp k.destination.dsp).1 }
  | .connectToOutput ep => .ok { K with output := some ep }
  | .connectToInput ep => .ok { K with input := some ep }

theorem link_keys {E : Type} {g g' : Graph N E} {n : Id} {dir : Direction} {k : Id}
    (hn : g.nodes.keys.Nodup) (h : g.link n dir k = .ok g') : g'.nodes.keys.Nodup := by
  unfold Graph.link at h
  obtain ⟨l, _, h⟩ := bind_ok h
  cases l with
  | some l => injection h with h; rw [← h]; exact hn
  | none =>
    injection h with h
    rw [← h]
    change (g.nodes.update _ _).keys.Nodup
    rw [HMap.keys_update]
    exact hn

theorem addEdge_keys {E : Type} {g g' : Graph N E} {k a b : Id} {d : E}
    (hn : g.nodes.keys.Nodup) (h : g.addEdge k a b d = .ok g') : g'.nodes.keys.Nodup := by
  unfold Graph.addEdge at h
  cases ha : g.nodes.contains a with
  | false => rw [ha] at h; cases h
  | true =>
    cases hb : g.nodes.contains b with
    | false => rw [ha, hb] at h; cases h
    | true =>
      rw [ha, hb] at h
      obtain ⟨g1, h1, h⟩ := bind_ok h
      obtain ⟨g2, h2, h⟩ := bind_ok h
      injection h with h
      rw [← h]
      have := link_keys (link_keys hn h1) h2
      exact this

theorem removeEdge_keys {E : Type} {g : Graph N E} {σ : IterOrder Id} {a b : Id}
    (hn : g.nodes.keys.Nodup) : (g.removeEdge σ a b).1.nodes.keys.Nodup := by
  unfold Graph.removeEdge
  cases g.findEdge σ a b with
  | none => exact hn
  | some i =>
    simp only
    cases g.edges.get? i with
    | none => exact hn
    | some e =>
      change ((g.nodes.mapVals _).mapVals _).keys.Nodup
      rw [HMap.keys_mapVals, HMap.keys_mapVals]
      exact hn

theorem apply_control {ops : NodeOps S P C} {E E' : Processor S P} {c : Command P C × Luck}
    (hn : E.graph.graph.nodes.keys.Nodup) (h : E.apply ops c = .ok E') :
    (control E).apply c = .ok (control E') ∧ E'.graph.graph.nodes.keys.Nodup := by
  obtain ⟨c, luck⟩ := c
  cases c with
  | start => injection h with h; subst h; exact ⟨rfl, hn⟩
  | stop => injection h with h; subst h; exact ⟨rfl, hn⟩
  | addDsp d =>
    obtain ⟨G, h1, h2⟩ := bind_ok h
    injection h2 with h2
    subst h2
    obtain ⟨g, h3, h4⟩ := bind_ok h1
    injection h4 with h4
    subst h4
    refine ⟨?_, ?_⟩
    · simp only [Control.apply, control]
      rw [Graph.addNode_mapNodes bare E.graph.graph d.id d, h3]
      rfl
    · unfold Graph.addNode at h3
      split_ifs at h3
      injection h3 with h3
      rw [← h3]
      exact HMap.nodup_insert hn _ _
  | removeDsp i =>
    obtain ⟨G, h1, h2⟩ := bind_ok h
    injection h2 with h2
    subst h2
    obtain ⟨⟨g, d⟩, h3, h4⟩ := bind_ok h1
    have hG : G.graph = g ∧ G.inputEndpoint = E.graph.inputEndpoint ∧
        G.outputEndpoint = E.graph.outputEndpoint := by
      cases d with
      | none => injection h4 with h4; subst h4; exact ⟨rfl, rfl, rfl⟩
      | some d =>
        simp only at h4
        split_ifs at h4
        injection h4 with h4; subst h4; exact ⟨rfl, rfl, rfl⟩
    change E.graph.graph.removeNode i = _ at h3
    obtain ⟨e1, e2, e3⟩ := hG
    refine ⟨?_, ?_⟩
    · simp only [Control.apply, control]
      rw [Graph.removeNode_mapNodes bare E.graph.graph i, h3, e1, e2, e3]
      rfl
    · simp only
      rw [e1]
      unfold Graph.removeNode at h3
      split at h3
      · injection h3 with h3
        obtain ⟨rfl, _⟩ := Prod.mk.inj h3
        exact hn
      · split_ifs at h3
        injection h3 with h3
        obtain ⟨rfl, _⟩ := Prod.mk.inj h3
        exact HMap.nodup_remove hn _
  | change i r =>
    obtain ⟨G, h1, h2⟩ := bind_ok h
    injection h2 with h2
    subst h2
    unfold changeParameter at h1
    cases hd : E.graph.graph.getNode i with
    | none =>
      rw [hd] at h1
      injection h1 with h1; subst h1; exact ⟨rfl, hn⟩
    | some d =>
      rw [hd] at h1
      obtain ⟨s, _, h3⟩ := bind_ok h1
      injection h3 with h3
      subst h3
      refine ⟨?_, ?_⟩
      · simp only [Control.apply, control]
        rw [Graph.setNode_mapNodes bare E.graph.graph i d { d with state := s } hd rfl hn]
      · change (E.graph.graph.nodes.update i _).keys.Nodup
        rw [HMap.keys_update]
        exact hn
  | addConnection k =>
    obtain ⟨G, h1, h2⟩ := bind_ok h
    injection h2 with h2
    subst h2
    obtain ⟨g, h3, h4⟩ := bind_ok h1
    injection h4 with h4
    subst h4
    refine ⟨?_, addEdge_keys hn h3⟩
    simp only [Control.apply, control]
    rw [Graph.addEdge_mapNodes bare E.graph.graph, h3]
    rfl
  | removeConnection k =>
    injection h with h
    subst h
    refine ⟨?_, removeEdge_keys hn⟩
    simp only [Control.apply, control]
    rw [Graph.removeEdge_mapNodes]
    rfl
  | connectToOutput ep => injection h with h; subst h; exact ⟨rfl, hn⟩
  | connectToInput ep => injection h with h; subst h; exact ⟨rfl, hn⟩

theorem processCommands_control {ops : NodeOps S P C} (cs : List (Command P C × Luck)) :
    ∀ (E E' : Processor S P), E.graph.graph.nodes.keys.Nodup → E.processCommands ops cs = .ok E' →
    cs.foldlM Control.apply (control E) = .ok (control E') ∧ E'.graph.graph.nodes.keys.Nodup := by
  induction cs with
  | nil => intro E E' hn h; injection h with h; subst h; exact ⟨rfl, hn⟩
  | cons c cs ih =>
    intro E E' hn h
    obtain ⟨E1, h1, h2⟩ := foldlM_cons_ok h
    obtain ⟨a1, a2⟩ := apply_control hn h1
    obtain ⟨b1, b2⟩ := ih _ _ a2 h2
    refine ⟨?_, b2⟩
    rw [List.foldlM_cons]
    exact (ok_bind a1).trans b1

theorem render_control [Zero S] [Add S] {ops : NodeOps S P C} {env : Nat → Env}
    {E E' : Processor S P} {input output o' : Buf S} (hn : E.graph.graph.nodes.keys.Nodup)
    (h : E.render ops env input output = .ok (o', E')) :
    control E' = control E ∧ E'.graph.graph.nodes.keys.Nodup := by
  cases hs : E.started with
  | false => obtain ⟨_, rfl⟩ := render_stopped hs h; exact ⟨rfl, hn⟩
  | true =>
    obtain ⟨G', h1, rfl⟩ := render_started hs h
    obtain ⟨a1, a2, a3, a4⟩ := loop_bare _ _ _ _ _ _ hn h1
    refine ⟨?_, a2⟩
    simp only [control, updatePosition, a1, a3, a4]

theorem calls_control [Zero S] [Add S] {ops : NodeOps S P C} (ks : List (Call S P C)) :
    ∀ (E E' : Processor S P), E.graph.graph.nodes.keys.Nodup → calls ops E ks = .ok E' →
    (ks.flatMap Call.commands).foldlM Control.apply (control E) = .ok (control E') ∧
    E'.graph.graph.nodes.keys.Nodup := by
  induction ks with
  | nil => intro E E' hn h; injection h with h; subst h; exact ⟨rfl, hn⟩
  | cons k ks ih =>
    intro E E' hn h
    obtain ⟨o, E1, h1, h2⟩ := calls_cons h
    obtain ⟨o1, _, h1⟩ := bind_ok h1
    obtain ⟨E0, p1, p2⟩ := bind_ok h1
    obtain ⟨a1, a2⟩ := processCommands_control _ _ _ hn p1
    obtain ⟨b1, b2⟩ := render_control a2 p2
    obtain ⟨c1, c2⟩ := ih _ _ b2 h2
    refine ⟨?_, c2⟩
    rw [List.flatMap_cons, List.foldlM_append]
    refine (ok_bind a1).trans ?_
    rw [← b1]
    exact c1

end Processor

/-! ## Threads -/

namespace System

open Processor

variable [Zero S] [Add S] {ops : NodeOps S P C}

theorem sent_append (as bs : List (Action S P C)) : sent (as ++ bs) = sent as ++ sent bs := by
  unfold sent; rw [List.filterMap_append]

theorem applied_append (as bs : List (Action S P C)) :
    applied (as ++ bs) = applied as ++ applied bs := by
  unfold applied; rw [List.filterMap_append]

theorem run_channel {s t : System S P C} {as : List (Action S P C)} (h : Run ops s as t) :
    applied as ++ t.channel = s.channel ++ sent as := by
  induction h with
  | nil => simp [applied, sent]
  | snoc _ hs ih =>
    rw [sent_append, applied_append]
    cases hs with
    | send i c =>
      simp only [applied, sent, List.filterMap_cons, List.filterMap_nil, List.append_nil] at ih ⊢
      rw [← List.append_assoc, ih, List.append_assoc]
    | enter _ _ _ _ _ _ => simpa [applied, sent] using ih
    | receive => simpa [applied, sent] using ih
    | leave => simpa [applied, sent] using ih

theorem run_append {s u : System S P C} {bs : List (Action S P C)} : ∀ {as : List (Action S P C)},
    Run ops s (as ++ bs) u → ∃ t, Run ops s as t ∧ Run ops t bs u := by
  induction bs using List.reverseRecOn generalizing u with
  | nil => intro as h; rw [List.append_nil] at h; exact ⟨u, h, .nil u⟩
  | append_singleton bs b ih =>
    intro as h
    rw [← List.append_assoc] at h
    generalize hx : as ++ bs ++ [b] = xs at h
    cases h with
    | nil => simp at hx
    | snoc h1 h2 =>
      obtain ⟨e1, e2⟩ := List.append_inj' hx rfl
      injection e2 with e2
      subst e2
      subst e1
      obtain ⟨t, r1, r2⟩ := ih h1
      exact ⟨t, r1, .snoc r2 h2⟩

theorem entered_append (as bs : List (Action S P C)) :
    entered (as ++ bs) = entered as ++ entered bs := by
  unfold entered; rw [List.filterMap_append]

/-- What a run has done so far, as process calls. -/
def Explained (ops : NodeOps S P C) (sr mc mf : Nat) (as : List (Action S P C))
    (s : System S P C) : Prop :=
  match s.buffers with
  | none => ∃ ks, calls ops (new sr mc mf) ks = .ok s.engine ∧
      history ks = (applied as).map Prod.snd ∧
      ks.map (fun k => (k.input, k.output)) = entered as
  | some b => ∃ ks E cs output, calls ops (new sr mc mf) ks = .ok E ∧
      output.clear = .ok b.2 ∧ E.processCommands ops cs = .ok s.engine ∧
      history ks ++ cs.map Prod.fst = (applied as).map Prod.snd ∧
      ks.map (fun k => (k.input, k.output)) ++ [(b.1, output)] = entered as

/-- The last step of a process call. -/
theorem leave_explained {sr mc mf : Nat} {as : List (Action S P C)} {s t : System S P C}
    {env : Nat → Env} {o : Buf S} (h : Explained ops sr mc mf as s)
    (hs : Step ops s (.leave env o) t) :
    ∃ ks k E, calls ops (new sr mc mf) ks = .ok E ∧
      E.process ops k.env k.commands k.input k.output = .ok (o, t.engine) ∧
      history (ks ++ [k]) = (applied as).map Prod.snd ∧
      (ks ++ [k]).map (fun k => (k.input, k.output)) = entered as ∧ t.buffers = none := by
  cases hs with
  | leave E E' input output output' env hr =>
    obtain ⟨ks, E0, cs, out, h1, h2, h3, h4, h5⟩ := h
    refine ⟨ks, ⟨cs, input, out, env⟩, E0, h1, ?_, ?_, ?_, rfl⟩
    · exact (ok_bind h2).trans ((ok_bind h3).trans hr)
    · rw [history_append, ← h4, history, history, List.flatMap_cons, List.flatMap_nil,
        List.append_nil]
    · rw [List.map_append]; exact h5

theorem run_explained {sr mc mf : Nat} {as : List (Action S P C)} {s : System S P C}
    (h : Run ops (fresh sr mc mf) as s) : Explained ops sr mc mf as s := by
  generalize h0 : (fresh sr mc mf : System S P C) = s0 at h
  induction h with
  | nil => subst h0; exact ⟨[], rfl, rfl, rfl⟩
  | @snoc t u bs a _ hs ih =>
    cases a with
    | leave env o =>
      obtain ⟨ks, k, E, h1, h2, h3, h4, h5⟩ := leave_explained ih hs
      unfold Explained
      rw [h5]
      refine ⟨ks ++ [k], (calls_append _ _ _ _).mpr ⟨E, h1, ok_bind h2⟩, ?_, ?_⟩
      · rw [h3, applied_append]; simp [applied]
      · rw [h4, entered_append]; simp [entered]
    | send i c =>
      cases hs
      have e1 : applied (bs ++ [.send i c]) = applied bs := by
        rw [applied_append]; simp [applied]
      have e2 : entered (bs ++ [.send i c]) = entered bs := by
        rw [entered_append]; simp [entered]
      unfold Explained at ih ⊢
      rw [e1, e2]
      exact ih
    | enter input output =>
      cases hs with
      | enter channel E _ _ cleared hc =>
        obtain ⟨ks, h1, h2, h3⟩ := ih
        refine ⟨ks, E, [], output, h1, hc, rfl, ?_, ?_⟩
        · rw [h2, applied_append]; simp [applied]
        · rw [h3, entered_append]; rfl
    | receive i c luck =>
      cases hs with
      | receive channel _ _ E E' b _ ha =>
        obtain ⟨ks, E0, cs, out, h1, h2, h3, h4, h5⟩ := ih
        refine ⟨ks, E0, cs ++ [(c, luck)], out, h1, h2, ?_, ?_, ?_⟩
        · unfold processCommands
          rw [List.foldlM_append]
          exact (ok_bind h3).trans (ok_bind ha)
        · rw [applied_append, List.map_append, List.map_append, ← h4, List.append_assoc]
          rfl
        · rw [h5, entered_append]; simp [entered]

end System
end Rawdio
