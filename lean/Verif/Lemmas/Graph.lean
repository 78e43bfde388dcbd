import Mathlib.Data.List.Nodup
import Mathlib.Data.List.Perm.Subperm
import Mathlib.Tactic.SplitIfs
import Verif.Lemmas.HMap
import Verif.Spec.Patch

/-! Helper lemmas about the graph: the representation invariant of the linked lists. -/

namespace Rawdio

/-- The successor of an element in a list. -/
def succIn : List Id → Id → Option Id
  | [], _ => none
  | a :: t, e => if a = e then t.head? else succIn t e

theorem succIn_of_not_mem {l : List Id} {e : Id} (h : e ∉ l) : succIn l e = none := by
  induction l with
  | nil => rfl
  | cons a t ih =>
    simp only [List.mem_cons, not_or] at h
    simp only [succIn]
    rw [if_neg (fun h' => h.1 h'.symm), ih h.2]

theorem succIn_mem {l : List Id} {e x : Id} (h : succIn l e = some x) : e ∈ l ∧ x ∈ l := by
  induction l with
  | nil => cases h
  | cons a t ih =>
    simp only [succIn] at h
    split_ifs at h with ha
    · subst ha
      exact ⟨List.mem_cons_self .., List.mem_cons_of_mem _ (List.mem_of_mem_head? h)⟩
    · exact ⟨List.mem_cons_of_mem _ (ih h).1, List.mem_cons_of_mem _ (ih h).2⟩

theorem succIn_append_single {l : List Id} (hl : l.Nodup) {k : Id} (e : Id) :
    succIn (l ++ [k]) e = if l.getLast? = some e then some k else succIn l e := by
  induction l with
  | nil => simp [succIn]
  | cons a t ih =>
    rw [List.nodup_cons] at hl
    simp only [List.cons_append, succIn]
    rw [ih hl.2]
    cases t with
    | nil =>
      simp only [List.nil_append, List.head?_cons, List.getLast?_singleton, Option.some.injEq,
        List.head?_nil, List.getLast?_nil, succIn]
      split_ifs <;> simp_all
    | cons b t =>
      simp only [List.cons_append, List.head?_cons, List.getLast?_cons_cons]
      by_cases hae : a = e
      · subst hae
        rw [if_pos rfl, if_pos rfl, if_neg]
        intro h
        exact hl.1 (List.mem_of_getLast? h)
      · rw [if_neg hae, if_neg hae]

theorem head?_filter_ne {l : List Id} (hl : l.Nodup) (e : Id) :
    (l.filter (· != e)).head? = if l.head? = some e then succIn l e else l.head? := by
  cases l with
  | nil => rfl
  | cons a t =>
    rw [List.nodup_cons] at hl
    simp only [List.head?_cons, Option.some.injEq, succIn, List.filter_cons]
    by_cases h : a = e
    · subst h
      have : t.filter (· != a) = t := by
        rw [List.filter_eq_self]
        intro x hx
        have : x ≠ a := fun h => hl.1 (h ▸ hx)
        simpa using this
      simp [this]
    · simp [h]

theorem succIn_cons (a : Id) (t : List Id) (e : Id) :
    succIn (a :: t) e = if a = e then t.head? else succIn t e := rfl

theorem succIn_cons_self (a : Id) (t : List Id) : succIn (a :: t) a = t.head? := by
  rw [succIn_cons, if_pos rfl]

theorem succIn_cons_ne {a e : Id} (t : List Id) (h : a ≠ e) : succIn (a :: t) e = succIn t e := by
  rw [succIn_cons, if_neg h]

theorem succIn_filter_ne {l : List Id} (hl : l.Nodup) {x e : Id} (hx : x ≠ e) :
    succIn (l.filter (· != e)) x = if succIn l x = some e then succIn l e else succIn l x := by
  induction l with
  | nil => rfl
  | cons a t ih =>
    rw [List.nodup_cons] at hl
    rw [List.filter_cons]
    by_cases hae : a = e
    · subst hae
      simp only [bne_self_eq_false, Bool.false_eq_true, if_false]
      rw [succIn_cons_ne t (Ne.symm hx), ih hl.2]
      have : succIn t x ≠ some a := fun h => hl.1 (succIn_mem h).2
      rw [if_neg this, if_neg this]
    · have hb : (a != e) = true := by simpa using hae
      simp only [hb, if_true]
      rw [succIn_cons_ne t hae]
      by_cases hax : a = x
      · subst hax
        rw [succIn_cons_self, succIn_cons_self, head?_filter_ne hl.2]
      · rw [succIn_cons_ne _ hax, succIn_cons_ne _ hax, ih hl.2]

theorem succIn_split {pre post : List Id} {x : Id} (h : x ∉ pre) :
    succIn (pre ++ x :: post) x = post.head? := by
  induction pre with
  | nil => simp [succIn]
  | cons a t ih =>
    simp only [List.mem_cons, not_or] at h
    simp only [List.cons_append, succIn]
    rw [if_neg (fun h' => h.1 h'.symm), ih h.2]

namespace Graph

variable {N E : Type}

theorem nextOf_setNext_same (dir : Direction) (v : Option Id) (e : Edge E) :
    nextOf dir (Edge.setNext dir v e) = v := by cases dir <;> rfl

theorem nextOf_setNext_ne {d d' : Direction} (h : d ≠ d') (v : Option Id) (e : Edge E) :
    nextOf d (Edge.setNext d' v e) = nextOf d e := by
  cases d <;> cases d' <;> first | rfl | exact absurd rfl h

theorem firstOf_setFirst_same (dir : Direction) (v : Option Id) (n : Node N) :
    firstOf dir (Node.setFirst dir v n) = v := by cases dir <;> rfl

theorem firstOf_setFirst_ne {d d' : Direction} (h : d ≠ d') (v : Option Id) (n : Node N) :
    firstOf d (Node.setFirst d' v n) = firstOf d n := by
  cases d <;> cases d' <;> first | rfl | exact absurd rfl h

theorem setNext_ends (dir : Direction) (v : Option Id) (e : Edge E) :
    (Edge.setNext dir v e).fromNode = e.fromNode ∧ (Edge.setNext dir v e).toNode = e.toNode ∧
      (Edge.setNext dir v e).data = e.data := by cases dir <;> exact ⟨rfl, rfl, rfl⟩

theorem setFirst_data (dir : Direction) (v : Option Id) (n : Node N) :
    (Node.setFirst dir v n).data = n.data := by cases dir <;> rfl

/-- The linked list of node `n` in one direction holds exactly `l`. -/
structure Lists (g : Graph N E) (n : Id) (dir : Direction) (l : List Id) : Prop where
  nodup : l.Nodup
  first : ∃ nd, g.nodes.get? n = some nd ∧ firstOf dir nd = l.head?
  next : ∀ e ∈ l, ∃ ed, g.edges.get? e = some ed ∧ nextOf dir ed = succIn l e

theorem Lists.length_le {g : Graph N E} {n : Id} {dir : Direction} {l : List Id}
    (h : Lists g n dir l) : l.length ≤ g.edges.length := by
  have h1 : l ⊆ g.edges.keys := by
    intro e he
    obtain ⟨ed, h1, _⟩ := h.next e he
    rw [HMap.mem_keys, h1]; rfl
  have h2 := (List.subperm_of_subset h.nodup h1).length_le
  simpa [HMap.keys] using h2

theorem Lists.edgeNext_none {g : Graph N E} {n : Id} {dir : Direction} {l : List Id}
    (h : Lists g n dir l) : g.edgeNext n dir none = l.head? := by
  obtain ⟨nd, h1, h2⟩ := h.first
  simp only [edgeNext, h1, h2]

theorem Lists.edgeNext_some {g : Graph N E} {n : Id} {dir : Direction} {l : List Id}
    (h : Lists g n dir l) {e : Id} (he : e ∈ l) :
    g.edgeNext n dir (some e) = succIn l e := by
  obtain ⟨nd, h1, _⟩ := h.first
  obtain ⟨ed, h2, h3⟩ := h.next e he
  simp only [edgeNext, h1, h2, h3]

theorem edgeWalk_of_head {g : Graph N E} {n : Id} {dir : Direction} {l : List Id}
    (h : Lists g n dir l) : ∀ (post pre : List Id) (cur : Option Id) (fuel : Nat),
    l = pre ++ post → g.edgeNext n dir cur = post.head? → post.length + 1 ≤ fuel →
    g.edgeWalk n dir fuel cur = .ok post := by
  intro post
  induction post with
  | nil =>
    intro pre cur fuel _ hn hf
    obtain ⟨f, rfl⟩ : ∃ f, fuel = f + 1 := ⟨fuel - 1, by simp at hf; omega⟩
    simp only [edgeWalk, hn, List.head?_nil]
  | cons x post ih =>
    intro pre cur fuel hl hn hf
    obtain ⟨f, rfl⟩ : ∃ f, fuel = f + 1 := ⟨fuel - 1, by simp at hf; omega⟩
    simp only [edgeWalk, hn, List.head?_cons]
    have hx : x ∈ l := by rw [hl]; simp
    have hxp : x ∉ pre := by
      have := h.nodup
      rw [hl, List.nodup_append] at this
      intro hx'
      exact this.2.2 x hx' x (List.mem_cons_self ..) rfl
    rw [ih (pre ++ [x]) (some x) f (by simp [hl]) (by
      rw [h.edgeNext_some hx, hl, succIn_split hxp]) (by simp at hf; omega)]
    rfl

theorem Lists.edgeIds {g : Graph N E} {n : Id} {dir : Direction} {l : List Id}
    (h : Lists g n dir l) : g.edgeIds n dir = .ok l :=
  edgeWalk_of_head h l [] none _ rfl h.edgeNext_none (by have := h.length_le; omega)

theorem nodeWalk_of_head {g : Graph N E} {n : Id} {dir : Direction} {l : List Id}
    (h : Lists g n dir l) (far : Id → Id)
    (hfar : ∀ e ∈ l, ∃ ed, g.edges.get? e = some ed ∧ farEnd dir ed = far e) :
    ∀ (post pre : List Id) (cur : Option Id) (fuel : Nat),
    l = pre ++ post → g.edgeNext n dir cur = post.head? → post.length + 1 ≤ fuel →
    g.nodeWalk n dir fuel cur = .ok (post.map far) := by
  intro post
  induction post with
  | nil =>
    intro pre cur fuel _ hn hf
    obtain ⟨f, rfl⟩ : ∃ f, fuel = f + 1 := ⟨fuel - 1, by simp at hf; omega⟩
    simp only [nodeWalk, nodeNext, hn, List.head?_nil, List.map_nil]
  | cons x post ih =>
    intro pre cur fuel hl hn hf
    obtain ⟨f, rfl⟩ : ∃ f, fuel = f + 1 := ⟨fuel - 1, by simp at hf; omega⟩
    have hx : x ∈ l := by rw [hl]; simp
    obtain ⟨ed, h1, h2⟩ := hfar x hx
    simp only [nodeWalk, nodeNext, hn, List.head?_cons, h1, h2]
    have hxp : x ∉ pre := by
      have := h.nodup
      rw [hl, List.nodup_append] at this
      intro hx'
      exact this.2.2 x hx' x (List.mem_cons_self ..) rfl
    rw [ih (pre ++ [x]) (some x) f (by simp [hl]) (by
      rw [h.edgeNext_some hx, hl, succIn_split hxp]) (by simp at hf; omega)]
    rfl

theorem Lists.nodeIds {g : Graph N E} {n : Id} {dir : Direction} {l : List Id}
    (h : Lists g n dir l) (far : Id → Id)
    (hfar : ∀ e ∈ l, ∃ ed, g.edges.get? e = some ed ∧ farEnd dir ed = far e) :
    g.nodeIds n dir = .ok (l.map far) :=
  nodeWalk_of_head h far hfar l [] none _ rfl h.edgeNext_none (by have := h.length_le; omega)

/-- What `link` does, entry by entry. -/
theorem link_spec {g : Graph N E} {n : Id} {dir : Direction} {l : List Id}
    (h : Lists g n dir l) (k : Id) :
    ∃ g', g.link n dir k = .ok g' ∧
      (∀ i, g'.nodes.get? i = (g.nodes.get? i).map
        (fun nd => if i = n ∧ l = [] then Node.setFirst dir (some k) nd else nd)) ∧
      (∀ e, g'.edges.get? e = (g.edges.get? e).map
        (fun ed => if l.getLast? = some e then Edge.setNext dir (some k) ed else ed)) ∧
      g'.nodes.keys = g.nodes.keys ∧ g'.edges.keys = g.edges.keys := by
  simp only [link, lastEdgeId, h.edgeIds, bind, Except.bind, pure, Except.pure]
  cases hl : l.getLast? with
  | none =>
    have hnil : l = [] := List.getLast?_eq_none_iff.mp hl
    refine ⟨_, rfl, ?_, ?_, HMap.keys_update .., rfl⟩
    · intro i
      rw [HMap.get?_update]
      by_cases hi : i = n
      · subst hi; simp [hnil]
      · simp [hi]
    · intro e; simp
  | some last =>
    have hnil : l ≠ [] := by rintro rfl; simp at hl
    refine ⟨_, rfl, ?_, ?_, rfl, HMap.keys_update ..⟩
    · intro i; simp [hnil]
    · intro e
      simp only
      rw [HMap.get?_update]
      by_cases he : e = last
      · subst he; simp
      · have : ¬ (last = e) := fun h => he h.symm
        simp [he, this]

/-- The representation invariant: the hash maps and linked lists hold exactly the patch. -/
structure Rep (g : Graph N E) (p : Patch E) : Prop where
  nodupN : g.nodes.keys.Nodup
  nodupE : g.edges.keys.Nodup
  nodupC : (p.conns.map Conn.id).Nodup
  nodeMem : ∀ i, i ∈ p.nodes ↔ (g.nodes.get? i).isSome
  nodupP : p.nodes.Nodup
  ends : ∀ c ∈ p.conns, c.src ∈ p.nodes ∧ c.dst ∈ p.nodes
  first : ∀ n nd, g.nodes.get? n = some nd → ∀ dir,
    firstOf dir nd = ((p.at' n dir).map Conn.id).head?
  edge : ∀ c ∈ p.conns, ∃ e, g.edges.get? c.id = some e ∧ e.fromNode = c.src ∧ e.toNode = c.dst ∧
    e.data = c.data ∧ ∀ dir, nextOf dir e = succIn ((p.at' (c.near dir) dir).map Conn.id) c.id
  edgeNone : ∀ i, (g.edges.get? i).isSome → ∃ c ∈ p.conns, c.id = i

theorem Rep.at_nodup {g : Graph N E} {p : Patch E} (h : Rep g p) (n : Id) (dir : Direction) :
    ((p.at' n dir).map Conn.id).Nodup :=
  h.nodupC.sublist (List.Sublist.map _ (List.filter_sublist ..))

theorem mem_at {p : Patch E} {n : Id} {dir : Direction} {c : Conn E} :
    c ∈ p.at' n dir ↔ c ∈ p.conns ∧ c.near dir = n := by
  simp [Patch.at', List.mem_filter]

theorem Rep.lists {g : Graph N E} {p : Patch E} (h : Rep g p) {n : Id} (hn : n ∈ p.nodes)
    (dir : Direction) : Lists g n dir ((p.at' n dir).map Conn.id) := by
  refine ⟨h.at_nodup n dir, ?_, ?_⟩
  · obtain ⟨nd, hnd⟩ := Option.isSome_iff_exists.mp ((h.nodeMem n).mp hn)
    exact ⟨nd, hnd, h.first n nd hnd dir⟩
  · intro e he
    rw [List.mem_map] at he
    obtain ⟨c, hc, rfl⟩ := he
    rw [mem_at] at hc
    obtain ⟨ed, h1, _, _, _, h5⟩ := h.edge c hc.1
    refine ⟨ed, h1, ?_⟩
    rw [h5 dir, hc.2]

theorem Rep.id_inj {g : Graph N E} {p : Patch E} (h : Rep g p) {c d : Conn E}
    (hc : c ∈ p.conns) (hd : d ∈ p.conns) (hid : c.id = d.id) : c = d :=
  List.inj_on_of_nodup_map h.nodupC hc hd hid

theorem rep_empty : Rep (empty : Graph N E) (Patch.empty : Patch E) := by
  refine ⟨List.nodup_nil, List.nodup_nil, List.nodup_nil, ?_, List.nodup_nil, ?_, ?_, ?_, ?_⟩
  · intro i; simp [Patch.empty, empty]
  · intro c hc; simp [Patch.empty] at hc
  · intro n nd h; simp [empty] at h
  · intro c hc; simp [Patch.empty] at hc
  · intro i h; simp [empty] at h

theorem rep_addNode {g : Graph N E} {p : Patch E} (h : Rep g p) (i : Id) (d : N)
    (hi : i ∉ p.nodes) :
    ∃ g', g.addNode i d = .ok g' ∧ Rep g' ⟨p.nodes ++ [i], p.conns⟩ ∧
      ∀ j, g'.getNode j = if j = i then some d else g.getNode j := by
  have hnone : g.nodes.get? i = none := by
    cases hg : g.nodes.get? i with
    | none => rfl
    | some v => exact absurd ((h.nodeMem i).mpr (by rw [hg]; rfl)) hi
  have hcont : g.nodes.contains i = false := HMap.not_contains_iff.mpr hnone
  refine ⟨⟨g.nodes.insert i (Node.new d), g.edges⟩, ?_, ?_, ?_⟩
  · simp only [addNode, hcont]; rfl
  · refine ⟨HMap.nodup_insert h.nodupN _ _, h.nodupE, h.nodupC, ?_, ?_, ?_, ?_, h.edge,
      h.edgeNone⟩
    · intro j
      simp only [List.mem_append, List.mem_singleton]
      rw [HMap.get?_insert, h.nodeMem]
      by_cases hj : j = i <;> simp [hj]
    · rw [List.nodup_append]
      refine ⟨h.nodupP, List.nodup_singleton _, ?_⟩
      intro a ha b hb
      rw [List.mem_singleton] at hb
      subst hb
      rintro rfl
      exact hi ha
    · intro c hc
      exact ⟨List.mem_append_left _ (h.ends c hc).1, List.mem_append_left _ (h.ends c hc).2⟩
    · intro n nd hnd dir
      simp only at hnd
      rw [HMap.get?_insert] at hnd
      by_cases hn : n = i
      · subst hn
        rw [if_pos rfl] at hnd
        injection hnd with hnd
        subst hnd
        have : (Patch.at' ⟨p.nodes ++ [n], p.conns⟩ n dir : List (Conn E)) = [] := by
          rw [Patch.at', List.filter_eq_nil_iff]
          intro c hc hcn
          have := h.ends c hc
          have hcn' : c.near dir = n := by simpa using hcn
          cases dir
          · exact hi (hcn' ▸ this.1)
          · exact hi (hcn' ▸ this.2)
        rw [this]
        cases dir <;> rfl
      · rw [if_neg hn] at hnd
        exact h.first n nd hnd dir
  · intro j
    simp only [getNode]
    rw [HMap.get?_insert]
    split_ifs <;> rfl

theorem addNode_panic {g : Graph N E} {p : Patch E} (h : Rep g p) (i : Id) (d : N)
    (hi : i ∈ p.nodes) : g.addNode i d = .error .panic := by
  have : g.nodes.contains i = true := (h.nodeMem i).mp hi
  simp only [addNode, this]; rfl

theorem rep_removeNode {g : Graph N E} {p : Patch E} (h : Rep g p) (i : Id)
    (hi : ∀ c ∈ p.conns, c.src ≠ i ∧ c.dst ≠ i) :
    ∃ g', g.removeNode i = .ok (g', g.getNode i) ∧ Rep g' ⟨p.nodes.filter (· != i), p.conns⟩ ∧
      ∀ j, g'.getNode j = if j = i then none else g.getNode j := by
  have hat : ∀ dir, p.at' i dir = [] := by
    intro dir
    rw [Patch.at', List.filter_eq_nil_iff]
    intro c hc hcn
    have hcn' : c.near dir = i := by simpa using hcn
    cases dir
    · exact (hi c hc).1 hcn'
    · exact (hi c hc).2 hcn'
  have hrep : Rep ⟨g.nodes.remove i, g.edges⟩ ⟨p.nodes.filter (· != i), p.conns⟩ := by
    refine ⟨HMap.nodup_remove h.nodupN _, h.nodupE, h.nodupC, ?_, h.nodupP.filter _, ?_, ?_, h.edge,
      h.edgeNone⟩
    · intro j
      simp only
      rw [HMap.get?_remove, List.mem_filter, h.nodeMem]
      by_cases hj : j = i <;> simp [hj]
    · intro c hc
      simp only [List.mem_filter, bne_iff_ne]
      exact ⟨⟨(h.ends c hc).1, (hi c hc).1⟩, ⟨(h.ends c hc).2, (hi c hc).2⟩⟩
    · intro n nd hnd dir
      simp only at hnd
      rw [HMap.get?_remove] at hnd
      split_ifs at hnd with hn
      exact h.first n nd hnd dir
  cases hg : g.nodes.get? i with
  | none =>
    refine ⟨g, ?_, ?_, ?_⟩
    · simp only [removeNode, hg, getNode]; rfl
    · have e1 : p.nodes.filter (· != i) = p.nodes := by
        rw [List.filter_eq_self]
        intro a ha
        have : a ≠ i := by
          rintro rfl
          rw [h.nodeMem, hg] at ha
          cases ha
        simpa using this
      rw [e1]; exact h
    · intro j
      by_cases hj : j = i
      · subst hj; simp [getNode, hg]
      · rw [if_neg hj]
  | some nd =>
    have e1 := h.first i nd hg .outgoing
    have e2 := h.first i nd hg .incoming
    rw [hat] at e1 e2
    simp only [firstOf, List.map_nil, List.head?_nil] at e1 e2
    refine ⟨⟨g.nodes.remove i, g.edges⟩, ?_, hrep, ?_⟩
    · simp only [removeNode, hg, e1, e2, getNode, Option.isSome_none, Option.map_some]; rfl
    · intro j
      simp only [getNode]
      rw [HMap.get?_remove]
      split_ifs <;> rfl

theorem removeNode_panic {g : Graph N E} {p : Patch E} (h : Rep g p) (i : Id) (c : Conn E)
    (hc : c ∈ p.conns) (hi : c.src = i ∨ c.dst = i) : g.removeNode i = .error .panic := by
  have hmem : i ∈ p.nodes := by
    rcases hi with hi | hi
    · exact hi ▸ (h.ends c hc).1
    · exact hi ▸ (h.ends c hc).2
  obtain ⟨nd, hnd⟩ := Option.isSome_iff_exists.mp ((h.nodeMem i).mp hmem)
  have hsome : ∀ dir, c.near dir = i → (firstOf dir nd).isSome := by
    intro dir hdir
    rw [h.first i nd hnd dir]
    cases hl : (p.at' i dir) with
    | nil =>
      have : c ∈ p.at' i dir := mem_at.mpr ⟨hc, hdir⟩
      rw [hl] at this; cases this
    | cons a t => rfl
  simp only [removeNode, hnd]
  rcases hi with hi | hi
  · have := hsome .outgoing hi
    simp only [firstOf] at this
    rw [this]
    split_ifs <;> first | rfl | contradiction
  · have := hsome .incoming hi
    simp only [firstOf] at this
    rw [this]
    rfl

theorem at_append (p : Patch E) (c : Conn E) (n : Id) (dir : Direction) :
    (Patch.at' ⟨p.nodes, p.conns ++ [c]⟩ n dir).map Conn.id =
      (p.at' n dir).map Conn.id ++ (if c.near dir = n then [c.id] else []) := by
  simp only [Patch.at', List.filter_append, List.map_append, List.filter_cons, List.filter_nil]
  by_cases h : c.near dir = n <;> simp [h]

theorem at_append_out (p : Patch E) (k a b : Id) (d : E) (n : Id) :
    (Patch.at' ⟨p.nodes, p.conns ++ [⟨k, a, b, d⟩]⟩ n .outgoing).map Conn.id =
      (p.at' n .outgoing).map Conn.id ++ (if a = n then [k] else []) := at_append ..

theorem at_append_in (p : Patch E) (k a b : Id) (d : E) (n : Id) :
    (Patch.at' ⟨p.nodes, p.conns ++ [⟨k, a, b, d⟩]⟩ n .incoming).map Conn.id =
      (p.at' n .incoming).map Conn.id ++ (if b = n then [k] else []) := at_append ..

theorem rep_addEdge {g : Graph N E} {p : Patch E} (h : Rep g p) (k a b : Id) (d : E)
    (ha : a ∈ p.nodes) (hb : b ∈ p.nodes) (hk : ∀ c ∈ p.conns, c.id ≠ k) :
    ∃ g', g.addEdge k a b d = .ok g' ∧ Rep g' ⟨p.nodes, p.conns ++ [⟨k, a, b, d⟩]⟩ ∧
      ∀ j, g'.getNode j = g.getNode j := by
  have hca : g.nodes.contains a = true := (h.nodeMem a).mp ha
  have hcb : g.nodes.contains b = true := (h.nodeMem b).mp hb
  have ho := h.lists ha .outgoing
  have hi := h.lists hb .incoming
  obtain ⟨g1, e1, n1, m1, kn1, km1⟩ := link_spec ho k
  -- the incoming list is not affected by the first link
  have hi1 : Lists g1 b .incoming ((p.at' b .incoming).map Conn.id) := by
    refine ⟨hi.nodup, ?_, ?_⟩
    · obtain ⟨nd, q1, q2⟩ := hi.first
      rw [n1, q1]
      refine ⟨_, rfl, ?_⟩
      rw [← q2]
      split_ifs
      · exact firstOf_setFirst_ne (by decide) _ _
      · rfl
    · intro e he
      obtain ⟨ed, q1, q2⟩ := hi.next e he
      rw [m1, q1]
      refine ⟨_, rfl, ?_⟩
      rw [← q2]
      split_ifs
      · exact nextOf_setNext_ne (by decide) _ _
      · rfl
  obtain ⟨g2, e2, n2, m2, kn2, km2⟩ := link_spec hi1 k
  refine ⟨⟨g2.nodes, g2.edges.insert k (Edge.new a b d)⟩, ?_, ?_, ?_⟩
  · simp only [addEdge, hca, hcb, e1, e2, bind, Except.bind, pure, Except.pure,
      Bool.not_true, Bool.false_eq_true, if_false]
  · have hkid : k ∉ p.conns.map Conn.id := by
      rw [List.mem_map]
      rintro ⟨c, hc, hck⟩
      exact hk c hc hck
    refine ⟨?_, ?_, ?_, ?_, h.nodupP, ?_, ?_, ?_, ?_⟩
    · show g2.nodes.keys.Nodup
      rw [kn2, kn1]; exact h.nodupN
    · refine HMap.nodup_insert ?_ _ _
      rw [km2, km1]; exact h.nodupE
    · simp only [List.map_append, List.map_cons, List.map_nil]
      rw [List.nodup_append]
      refine ⟨h.nodupC, List.nodup_singleton _, ?_⟩
      intro x hx y hy
      rw [List.mem_singleton] at hy
      subst hy
      rintro rfl
      exact hkid hx
    · intro i
      simp only
      rw [h.nodeMem, n2, n1]
      cases g.nodes.get? i <;> rfl
    · intro c hc
      rw [List.mem_append, List.mem_singleton] at hc
      rcases hc with hc | rfl
      · exact h.ends c hc
      · exact ⟨ha, hb⟩
    · intro n nd hnd dir
      simp only at hnd
      rw [n2, n1] at hnd
      cases hg : g.nodes.get? n with
      | none => rw [hg] at hnd; cases hnd
      | some nd0 =>
        rw [hg] at hnd
        simp only [Option.map_some, Option.some.injEq] at hnd
        have hf := h.first n nd0 hg dir
        rw [← hnd]
        cases dir with
        | outgoing =>
          rw [at_append_out]
          have : ∀ (x : Node N), firstOf .outgoing (if n = b ∧ (p.at' b .incoming).map Conn.id = []
              then Node.setFirst .incoming (some k) x else x) = firstOf .outgoing x := by
            intro x; split_ifs
            · exact firstOf_setFirst_ne (by decide) _ _
            · rfl
          rw [this]
          by_cases hna : n = a
          · subst hna
            simp only [true_and, if_true]
            by_cases hl : (p.at' n .outgoing).map Conn.id = []
            · rw [if_pos hl, hl, firstOf_setFirst_same]; rfl
            · rw [if_neg hl, hf]
              cases hc : (p.at' n .outgoing).map Conn.id with
              | nil => exact absurd hc hl
              | cons x t => rfl
          · rw [if_neg (fun h => hna h.1), if_neg (fun (h : a = n) => hna h.symm), List.append_nil, hf]
        | incoming =>
          rw [at_append_in]
          have hx0 : firstOf .incoming (if n = a ∧ (p.at' a .outgoing).map Conn.id = []
              then Node.setFirst .outgoing (some k) nd0 else nd0) = firstOf .incoming nd0 := by
            split_ifs
            · exact firstOf_setFirst_ne (by decide) _ _
            · rfl
          by_cases hnb : n = b
          · subst hnb
            simp only [true_and, if_true]
            by_cases hl : (p.at' n .incoming).map Conn.id = []
            · rw [if_pos hl, hl, firstOf_setFirst_same]; rfl
            · rw [if_neg hl, hx0, hf]
              cases hc : (p.at' n .incoming).map Conn.id with
              | nil => exact absurd hc hl
              | cons x t => rfl
          · rw [if_neg (fun h => hnb h.1), if_neg (fun (h : b = n) => hnb h.symm), List.append_nil, hx0, hf]
    · intro c hc
      rw [List.mem_append, List.mem_singleton] at hc
      rcases hc with hc | rfl
      · obtain ⟨e, q1, q2, q3, q4, q5⟩ := h.edge c hc
        simp only
        rw [HMap.get?_insert, if_neg (hk c hc), m2, m1, q1]
        simp only [Option.map_some]
        refine ⟨_, rfl, ?_, ?_, ?_, ?_⟩
        · rw [← q2]; split_ifs <;> simp only [setNext_ends]
        · rw [← q3]; split_ifs <;> simp only [setNext_ends]
        · rw [← q4]; split_ifs <;> simp only [setNext_ends]
        · intro dir
          have hlast : ∀ n dir', (((p.at' n dir').map Conn.id).getLast? = some c.id) →
              c.near dir' = n := by
            intro n dir' hl
            have := List.mem_of_getLast? hl
            rw [List.mem_map] at this
            obtain ⟨c', hc', hid⟩ := this
            rw [mem_at] at hc'
            rw [← h.id_inj hc'.1 hc hid]; exact hc'.2
          cases dir with
          | outgoing =>
            have : ∀ (x : Edge E), nextOf .outgoing (if ((p.at' b .incoming).map Conn.id).getLast? =
                some c.id then Edge.setNext .incoming (some k) x else x) = nextOf .outgoing x := by
              intro x; split_ifs
              · exact nextOf_setNext_ne (by decide) _ _
              · rfl
            rw [this, at_append_out]
            change _ = succIn ((p.at' c.src .outgoing).map Conn.id ++
              if a = c.src then [k] else []) c.id
            by_cases hsa : a = c.src
            · rw [if_pos hsa, succIn_append_single (h.at_nodup _ _), ← hsa]
              split_ifs with hl
              · exact nextOf_setNext_same ..
              · rw [q5 .outgoing]; simp only [Conn.near, hsa]
            · rw [if_neg hsa, List.append_nil, if_neg (fun hl => hsa (hlast _ _ hl).symm),
                q5 .outgoing]
              rfl
          | incoming =>
            have hx : nextOf .incoming (if ((p.at' a .outgoing).map Conn.id).getLast? =
                some c.id then Edge.setNext .outgoing (some k) e else e) = nextOf .incoming e := by
              split_ifs
              · exact nextOf_setNext_ne (by decide) _ _
              · rfl
            rw [at_append_in]
            change _ = succIn ((p.at' c.dst .incoming).map Conn.id ++
              if b = c.dst then [k] else []) c.id
            by_cases hsb : b = c.dst
            · rw [if_pos hsb, succIn_append_single (h.at_nodup _ _), ← hsb]
              split_ifs with hl
              · exact nextOf_setNext_same ..
              · exact nextOf_setNext_same ..
              · rw [nextOf_setNext_ne (by decide), q5 .incoming]; simp only [Conn.near, hsb]
              · rw [q5 .incoming]; simp only [Conn.near, hsb]
            · rw [if_neg hsb, List.append_nil, if_neg (fun hl => hsb (hlast _ _ hl).symm), hx,
                q5 .incoming]
              rfl
      · simp only
        rw [HMap.get?_insert, if_pos rfl]
        refine ⟨_, rfl, rfl, rfl, rfl, ?_⟩
        intro dir
        rw [at_append, if_pos rfl]
        rw [succIn_append_single (h.at_nodup _ _), if_neg, succIn_of_not_mem]
        · cases dir <;> rfl
        · intro hm
          rw [List.mem_map] at hm
          obtain ⟨c', hc', hid⟩ := hm
          exact hk c' (mem_at.mp hc').1 hid
        · intro hl
          have := List.mem_of_getLast? hl
          rw [List.mem_map] at this
          obtain ⟨c', hc', hid⟩ := this
          exact hk c' (mem_at.mp hc').1 hid
    · intro i hi
      simp only at hi
      rw [HMap.get?_insert] at hi
      by_cases hik : i = k
      · exact ⟨⟨k, a, b, d⟩, by simp, hik.symm⟩
      · rw [if_neg hik, m2, m1] at hi
        have : (g.edges.get? i).isSome := by
          cases hg : g.edges.get? i with
          | none => rw [hg] at hi; cases hi
          | some _ => rfl
        obtain ⟨c, hc, hid⟩ := h.edgeNone i this
        exact ⟨c, List.mem_append_left _ hc, hid⟩
  · intro j
    simp only [getNode]
    rw [n2, n1]
    cases g.nodes.get? j with
    | none => rfl
    | some nd =>
      simp only [Option.map_some, Option.some.injEq]
      split_ifs <;> simp only [setFirst_data]

theorem addEdge_panic {g : Graph N E} {p : Patch E} (h : Rep g p) (k a b : Id) (d : E)
    (hab : a ∉ p.nodes ∨ b ∉ p.nodes) : g.addEdge k a b d = .error .panic := by
  have hc : ∀ i, i ∉ p.nodes → g.nodes.contains i = false := by
    intro i hi
    rw [h.nodeMem] at hi
    simpa [HMap.contains] using hi
  by_cases ha : g.nodes.contains a = true
  · have hb : g.nodes.contains b = false := by
      rcases hab with hab | hab
      · rw [hc a hab] at ha; cases ha
      · exact hc b hab
    simp only [addEdge, ha, hb, Bool.not_true, Bool.not_false, Bool.false_eq_true, if_false, if_true,
      bind, Except.bind, pure, Except.pure]
    rfl
  · have ha' : g.nodes.contains a = false := by simpa using ha
    simp only [addEdge, ha', Bool.not_false, if_true, bind, Except.bind]
    rfl

theorem nextOf_replaceNext_same (dir : Direction) (i : Id) (r : Option Id) (e : Edge E) :
    nextOf dir (Edge.replaceNext dir i r e) = if nextOf dir e = some i then r else nextOf dir e := by
  unfold Edge.replaceNext
  split_ifs
  · exact nextOf_setNext_same ..
  · rfl

theorem nextOf_replaceNext_ne {d d' : Direction} (h : d ≠ d') (i : Id) (r : Option Id)
    (e : Edge E) : nextOf d (Edge.replaceNext d' i r e) = nextOf d e := by
  unfold Edge.replaceNext
  split_ifs
  · exact nextOf_setNext_ne h ..
  · rfl

theorem firstOf_replaceFirst_same (dir : Direction) (i : Id) (r : Option Id) (n : Node N) :
    firstOf dir (Node.replaceFirst dir i r n) =
      if firstOf dir n = some i then r else firstOf dir n := by
  unfold Node.replaceFirst
  split_ifs
  · exact firstOf_setFirst_same ..
  · rfl

theorem firstOf_replaceFirst_ne {d d' : Direction} (h : d ≠ d') (i : Id) (r : Option Id)
    (n : Node N) : firstOf d (Node.replaceFirst d' i r n) = firstOf d n := by
  unfold Node.replaceFirst
  split_ifs
  · exact firstOf_setFirst_ne h ..
  · rfl

theorem replaceNext_ends (dir : Direction) (i : Id) (r : Option Id) (e : Edge E) :
    (Edge.replaceNext dir i r e).fromNode = e.fromNode ∧
      (Edge.replaceNext dir i r e).toNode = e.toNode ∧
      (Edge.replaceNext dir i r e).data = e.data := by
  unfold Edge.replaceNext
  split_ifs
  · exact setNext_ends ..
  · exact ⟨rfl, rfl, rfl⟩

theorem replaceFirst_data (dir : Direction) (i : Id) (r : Option Id) (n : Node N) :
    (Node.replaceFirst dir i r n).data = n.data := by
  unfold Node.replaceFirst
  split_ifs
  · exact setFirst_data ..
  · rfl

theorem findEdge_some {g : Graph N E} {p : Patch E} (h : Rep g p) {σ : IterOrder Id} {a b i : Id}
    (hf : g.findEdge σ a b = some i) : ∃ c ∈ p.conns, c.id = i ∧ c.src = a ∧ c.dst = b := by
  have h1 := List.find?_some hf
  cases hg : g.edges.get? i with
  | none => rw [hg] at h1; cases h1
  | some e =>
    rw [hg] at h1
    simp only [joins, Option.map_some, Option.getD_some, Bool.and_eq_true, beq_iff_eq] at h1
    obtain ⟨c, hc, hid⟩ := h.edgeNone i (by rw [hg]; rfl)
    obtain ⟨e', q1, q2, q3, _⟩ := h.edge c hc
    rw [hid, hg] at q1
    injection q1 with q1
    subst q1
    exact ⟨c, hc, hid, q2 ▸ h1.1, q3 ▸ h1.2⟩

theorem findEdge_none {g : Graph N E} {p : Patch E} (h : Rep g p) {σ : IterOrder Id} {a b : Id}
    (hf : g.findEdge σ a b = none) : ∀ c ∈ p.conns, ¬ (c.src = a ∧ c.dst = b) := by
  intro c hc hab
  obtain ⟨e, q1, q2, q3, _⟩ := h.edge c hc
  rw [findEdge, List.find?_eq_none] at hf
  refine hf c.id (HMap.mem_iterKeys.mpr (by rw [q1]; rfl)) ?_
  rw [q1]
  simp [joins, q2, q3, hab.1, hab.2]

/-- Removing the connection with identity `i` from a patch. -/
theorem at_filter (p : Patch E) (i n : Id) (dir : Direction) :
    (Patch.at' ⟨p.nodes, p.conns.filter (fun c => c.id != i)⟩ n dir).map Conn.id =
      ((p.at' n dir).map Conn.id).filter (· != i) := by
  simp only [Patch.at', List.filter_filter, List.filter_map]
  congr 1
  apply List.filter_congr
  intro c _
  simp only [Function.comp]
  exact Bool.and_comm ..

theorem rep_removeEdge {g : Graph N E} {p : Patch E} (h : Rep g p) (σ : IterOrder Id) (a b : Id)
    {c : Conn E} (hc : c ∈ p.conns) (hf : g.findEdge σ a b = some c.id) :
    (g.removeEdge σ a b).2 = some c.data ∧
    Rep (g.removeEdge σ a b).1 ⟨p.nodes, p.conns.filter (fun x => x.id != c.id)⟩ ∧
    ∀ j, (g.removeEdge σ a b).1.getNode j = g.getNode j := by
  obtain ⟨ed, q1, q2, q3, q4, q5⟩ := h.edge c hc
  have hrem : g.removeEdge σ a b =
      ((({ g with edges := g.edges.remove c.id } : Graph N E).replaceConnections .outgoing c.id
        ed.nextOut).replaceConnections .incoming c.id ed.nextIn, some ed.data) := by
    simp only [removeEdge, hf, q1]
  rw [hrem]
  have hnode : ∀ j, (((({ g with edges := g.edges.remove c.id } : Graph N E).replaceConnections
      .outgoing c.id ed.nextOut).replaceConnections .incoming c.id ed.nextIn).nodes.get? j) =
      (g.nodes.get? j).map (fun nd => Node.replaceFirst .incoming c.id ed.nextIn
        (Node.replaceFirst .outgoing c.id ed.nextOut nd)) := by
    intro j
    simp only [replaceConnections]
    rw [HMap.get?_mapVals, HMap.get?_mapVals, Option.map_map]
    rfl
  have hedge : ∀ j, (((({ g with edges := g.edges.remove c.id } : Graph N E).replaceConnections
      .outgoing c.id ed.nextOut).replaceConnections .incoming c.id ed.nextIn).edges.get? j) =
      (if j = c.id then none else g.edges.get? j).map (fun e => Edge.replaceNext .incoming c.id
        ed.nextIn (Edge.replaceNext .outgoing c.id ed.nextOut e)) := by
    intro j
    simp only [replaceConnections]
    rw [HMap.get?_mapVals, HMap.get?_mapVals, HMap.get?_remove, Option.map_map]
    rfl
  have hed : ∀ dir, nextOf dir ed = succIn ((p.at' (c.near dir) dir).map Conn.id) c.id := q5
  refine ⟨by rw [q4], ⟨?_, ?_, ?_, ?_, h.nodupP, ?_, ?_, ?_, ?_⟩, ?_⟩
  · simp only [replaceConnections]
    rw [HMap.keys_mapVals, HMap.keys_mapVals]; exact h.nodupN
  · simp only [replaceConnections]
    rw [HMap.keys_mapVals, HMap.keys_mapVals]; exact HMap.nodup_remove h.nodupE _
  · exact h.nodupC.sublist (List.Sublist.map _ (List.filter_sublist ..))
  · intro i
    rw [hnode]
    simp only
    rw [h.nodeMem]
    cases g.nodes.get? i <;> rfl
  · intro c' hc'
    exact h.ends c' (List.mem_of_mem_filter hc')
  · intro n nd hnd dir
    rw [hnode] at hnd
    cases hg : g.nodes.get? n with
    | none => rw [hg] at hnd; cases hnd
    | some nd0 =>
      rw [hg] at hnd
      simp only [Option.map_some, Option.some.injEq] at hnd
      subst hnd
      have hf0 := h.first n nd0 hg dir
      rw [at_filter, head?_filter_ne (h.at_nodup _ _)]
      have key : ∀ r : Direction → Option Id, (∀ dir, nextOf dir ed = r dir) →
          (if firstOf dir nd0 = some c.id then r dir else firstOf dir nd0) =
          if ((p.at' n dir).map Conn.id).head? = some c.id then
            succIn ((p.at' n dir).map Conn.id) c.id else ((p.at' n dir).map Conn.id).head? := by
        intro r hr
        rw [hf0]
        split_ifs with hh
        · have hm := List.mem_of_mem_head? hh
          rw [List.mem_map] at hm
          obtain ⟨c', hc', hid⟩ := hm
          rw [mem_at] at hc'
          have := h.id_inj hc'.1 hc hid
          subst this
          rw [← hr, hed, hc'.2]
        · rfl
      cases dir with
      | outgoing =>
        rw [firstOf_replaceFirst_ne (by decide), firstOf_replaceFirst_same]
        exact key (fun dir => nextOf dir ed) (fun _ => rfl)
      | incoming =>
        rw [firstOf_replaceFirst_same, firstOf_replaceFirst_ne (by decide)]
        exact key (fun dir => nextOf dir ed) (fun _ => rfl)
  · intro c' hc'
    rw [List.mem_filter] at hc'
    have hne : c'.id ≠ c.id := by simpa using hc'.2
    obtain ⟨e, r1, r2, r3, r4, r5⟩ := h.edge c' hc'.1
    rw [hedge, if_neg hne, r1]
    refine ⟨_, rfl, ?_, ?_, ?_, ?_⟩
    · simp only [replaceNext_ends, r2]
    · simp only [replaceNext_ends, r3]
    · simp only [replaceNext_ends, r4]
    · intro dir
      rw [at_filter, succIn_filter_ne (h.at_nodup _ _) hne]
      have key : (if nextOf dir e = some c.id then nextOf dir ed else nextOf dir e) =
          if succIn ((p.at' (c'.near dir) dir).map Conn.id) c'.id = some c.id then
            succIn ((p.at' (c'.near dir) dir).map Conn.id) c.id
          else succIn ((p.at' (c'.near dir) dir).map Conn.id) c'.id := by
        rw [r5 dir]
        split_ifs with hh
        · have hm := (succIn_mem hh).2
          rw [List.mem_map] at hm
          obtain ⟨c'', hc'', hid⟩ := hm
          rw [mem_at] at hc''
          have := h.id_inj hc''.1 hc hid
          subst this
          rw [hed, hc''.2]
        · rfl
      cases dir with
      | outgoing =>
        rw [nextOf_replaceNext_ne (by decide), nextOf_replaceNext_same]
        exact key
      | incoming =>
        rw [nextOf_replaceNext_same, nextOf_replaceNext_ne (by decide)]
        exact key
  · intro i hi
    rw [hedge] at hi
    by_cases hic : i = c.id
    · rw [if_pos hic] at hi; cases hi
    · rw [if_neg hic] at hi
      have : (g.edges.get? i).isSome := by
        cases hg : g.edges.get? i with
        | none => rw [hg] at hi; cases hi
        | some _ => rfl
      obtain ⟨c', hc', hid⟩ := h.edgeNone i this
      refine ⟨c', ?_, hid⟩
      rw [List.mem_filter]
      exact ⟨hc', by rw [hid]; simpa using hic⟩
  · intro j
    simp only [getNode]
    rw [hnode]
    cases g.nodes.get? j with
    | none => rfl
    | some nd => simp only [Option.map_some, replaceFirst_data]

theorem removeEdge_none {g : Graph N E} {σ : IterOrder Id} {a b : Id}
    (hf : g.findEdge σ a b = none) : g.removeEdge σ a b = (g, none) := by
  simp only [removeEdge, hf]

theorem Rep.shows {g : Graph N E} {p : Patch E} (h : Rep g p) : g.Shows p := by
  refine ⟨?_, h.nodupC, ?_, ?_, ?_, ?_⟩
  · intro i
    rw [h.nodeMem]
    simp only [getNode]
    cases g.nodes.get? i <;> simp
  · intro i
    constructor
    · rintro ⟨c, hc, rfl⟩
      obtain ⟨e, h1, _⟩ := h.edge c hc
      exact ⟨e, h1⟩
    · rintro ⟨e, he⟩
      exact h.edgeNone i (by simp only [getEdge] at he; rw [he]; rfl)
  · intro c hc
    obtain ⟨e, h1, h2, h3, h4, _⟩ := h.edge c hc
    exact ⟨e, h1, h2, h3, h4⟩
  · intro n hn dir
    exact (h.lists hn dir).edgeIds
  · intro n hn dir
    have hl := h.lists hn dir
    -- the far end as a function of the identity
    have hex : ∀ e, ∃ f, ∀ c ∈ p.conns, c.id = e → f = c.far dir := by
      intro e
      by_cases he : ∃ c ∈ p.conns, c.id = e
      · obtain ⟨c, hc, hid⟩ := he
        refine ⟨c.far dir, ?_⟩
        intro c' hc' hid'
        rw [h.id_inj hc hc' (by rw [hid, hid'])]
      · exact ⟨0, fun c hc hid => absurd ⟨c, hc, hid⟩ he⟩
    choose far hfar using hex
    rw [hl.nodeIds far]
    · rw [List.map_map]
      congr 1
      apply List.map_congr_left
      intro c hc
      exact hfar _ c (mem_at.mp hc).1 rfl
    · intro e he
      rw [List.mem_map] at he
      obtain ⟨c, hc, rfl⟩ := he
      obtain ⟨ed, h1, h2, h3, _⟩ := h.edge c (mem_at.mp hc).1
      refine ⟨ed, h1, ?_⟩
      rw [hfar _ c (mem_at.mp hc).1 rfl]
      cases dir
      · exact h3
      · exact h2

/-- Two patches shown by the same graph have corresponding connections. -/
theorem shows_conn {g : Graph N E} {p q : Patch E} (hp : g.Shows p) (hq : g.Shows q) {c : Conn E}
    (hc : c ∈ p.conns) :
    ∃ c' ∈ q.conns, c'.id = c.id ∧ c'.src = c.src ∧ c'.dst = c.dst ∧ c'.data = c.data := by
  obtain ⟨e, h1, h2, h3, h4⟩ := hp.ends c hc
  obtain ⟨c', hc', hid⟩ := (hq.conns c.id).mpr ⟨e, h1⟩
  obtain ⟨e', g1, g2, g3, g4⟩ := hq.ends c' hc'
  rw [hid, h1] at g1
  injection g1 with g1
  subst g1
  exact ⟨c', hc', hid, by rw [← g2, h2], by rw [← g3, h3], by rw [← g4, h4]⟩

end Graph
end Rawdio
