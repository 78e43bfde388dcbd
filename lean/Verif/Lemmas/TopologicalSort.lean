import Mathlib.Order.WellFoundedSet
import Verif.Lemmas.Graph
import Verif.Model.TopologicalSort
import Verif.Spec.Order

/-! Helper lemmas about the topological sort. -/

namespace Rawdio
namespace TopologicalSort

open Graph

variable {N E : Type}

/-- The sources of the connections into `n`, in order, with repetitions. -/
def srcs (p : Patch E) (n : Id) : List Id := (p.at' n .incoming).map (Conn.far .incoming)

theorem mem_srcs {p : Patch E} {m n : Id} : m ∈ srcs p n ↔ p.Joined m n := by
  simp only [srcs, List.mem_map, mem_at, Patch.Joined]
  constructor
  · rintro ⟨c, ⟨h1, h2⟩, h3⟩; exact ⟨c, h1, h3, h2⟩
  · rintro ⟨c, h1, h2, h3⟩; exact ⟨c, ⟨h1, h3⟩, h2⟩

/-- The nodes in `order` that feed `n`. -/
def feeders (p : Patch E) (order : List Id) (n : Id) : List Id :=
  order.filter (fun m => (srcs p n).contains m)

theorem mem_feeders {p : Patch E} {order : List Id} {m n : Id} :
    m ∈ feeders p order n ↔ m ∈ order ∧ p.Joined m n := by
  simp only [feeders, List.mem_filter, List.contains_iff_mem, mem_srcs]

theorem feeders_subperm {p : Patch E} {order : List Id} (h : order.Nodup) (n : Id) :
    (feeders p order n).Subperm (srcs p n) := by
  apply List.subperm_of_subset (h.filter _)
  intro m hm
  exact mem_srcs.mpr (mem_feeders.mp hm).2

theorem feeders_append {p : Patch E} (order : List Id) (x n : Id) [Decidable (p.Joined x n)] :
    feeders p (order ++ [x]) n = feeders p order n ++ if p.Joined x n then [x] else [] := by
  simp only [feeders, List.filter_append, List.filter_cons, List.filter_nil]
  congr 1
  by_cases h : p.Joined x n
  · rw [if_pos h, if_pos (by rw [List.contains_iff_mem]; exact mem_srcs.mpr h)]
  · rw [if_neg h, if_neg (by rw [List.contains_iff_mem]; exact fun h' => h (mem_srcs.mp h'))]

/-- When all sources are covered, the sources are distinct and all in `order`. -/
theorem covered {p : Patch E} {order : List Id} (h : order.Nodup) {n : Id}
    (hc : (srcs p n).length = (feeders p order n).length) :
    (srcs p n).Nodup ∧ ∀ m, p.Joined m n → m ∈ order := by
  have hp : (feeders p order n).Perm (srcs p n) :=
    (feeders_subperm h n).perm_of_length_le (by omega)
  refine ⟨hp.nodup_iff.mp (h.filter _), ?_⟩
  intro m hm
  have : m ∈ feeders p order n := hp.mem_iff.mpr (mem_srcs.mpr hm)
  exact (mem_feeders.mp this).1

theorem connectionCount_eq {g : Graph N E} {p : Patch E} (h : Rep g p) {n : Id}
    (hn : n ∈ p.nodes) : g.connectionCount n .incoming = .ok (srcs p n).length := by
  simp only [connectionCount, h.shows.nbrs n hn .incoming, bind, Except.bind, pure, Except.pure]
  rfl

theorem isConnectedTo_eq {g : Graph N E} {p : Patch E} (h : Rep g p) {a : Id}
    (ha : a ∈ p.nodes) (b : Id) :
    ∃ r, g.isConnectedTo a b = .ok r ∧ (r = true ↔ p.Joined a b) := by
  refine ⟨((p.at' a .outgoing).map (Conn.far .outgoing)).any (fun i => i == b), ?_, ?_⟩
  · simp only [isConnectedTo, h.shows.nbrs a ha .outgoing, bind, Except.bind, pure, Except.pure]
  · simp only [List.any_map, List.any_eq_true, Function.comp, beq_iff_eq, Patch.Joined, mem_at]
    constructor
    · rintro ⟨c, ⟨h1, h2⟩, h3⟩; exact ⟨c, h1, h2, h3⟩
    · rintro ⟨c, h1, h2, h3⟩; exact ⟨c, ⟨h1, h2⟩, h3⟩

theorem nodes_perm {g : Graph N E} {p : Patch E} (h : Rep g p) (σ : IterOrder Id) :
    (g.allNodeIds σ).Perm p.nodes := by
  apply (List.perm_ext_iff_of_nodup ((σ.perm _).nodup_iff.mpr h.nodupN) h.nodupP).mpr
  intro i
  rw [h.nodeMem]
  exact HMap.mem_iterKeys

theorem nodeCount_eq {g : Graph N E} {p : Patch E} (h : Rep g p) :
    g.nodeCount = p.nodes.length := by
  have := (nodes_perm h .id).length_eq
  simpa [allNodeIds, HMap.iterKeys, IterOrder.id, HMap.keys, nodeCount] using this

theorem initDeps_spec {g : Graph N E} {p : Patch E} (h : Rep g p) (σ : IterOrder Id) :
    ∃ D, initDeps g σ = .ok D ∧
      ∀ i, D.get? i = if i ∈ p.nodes then some (srcs p i).length else none := by
  have key : ∀ (l : List Id) (D : HMap Id Nat), (∀ i ∈ l, i ∈ p.nodes) →
      ∃ D', l.foldlM (fun deps i => do
        let n ← g.connectionCount i .incoming
        return deps.insert i n) D = (.ok D' : Res (HMap Id Nat)) ∧
      ∀ i, D'.get? i = if i ∈ l then some (srcs p i).length else D.get? i := by
    intro l
    induction l with
    | nil => intro D _; exact ⟨D, rfl, by simp⟩
    | cons a l ih =>
      intro D hl
      obtain ⟨D', h1, h2⟩ := ih (D.insert a (srcs p a).length)
        (fun i hi => hl i (List.mem_cons_of_mem _ hi))
      refine ⟨D', ?_, ?_⟩
      · rw [List.foldlM_cons]
        simp only [connectionCount_eq h (hl a (List.mem_cons_self ..)), bind, Except.bind, pure,
          Except.pure] at h1 ⊢
        exact h1
      · intro i
        rw [h2, HMap.get?_insert]
        by_cases hia : i = a
        · subst hia; simp
        · simp [hia]
  obtain ⟨D, h1, h2⟩ := key (g.allNodeIds σ) [] (fun i hi => (nodes_perm h σ).mem_iff.mp hi)
  refine ⟨D, h1, ?_⟩
  intro i
  rw [h2]
  by_cases hi : i ∈ p.nodes
  · rw [if_pos hi, if_pos ((nodes_perm h σ).mem_iff.mpr hi)]
  · rw [if_neg hi, if_neg (fun h' => hi ((nodes_perm h σ).mem_iff.mp h'))]; rfl

/-- The loop invariant. -/
structure Inv (p : Patch E) (D : HMap Id Nat) (order : List Id) : Prop where
  nodup : order.Nodup
  sub : ∀ n ∈ order, n ∈ p.nodes
  deps_in : ∀ n, n ∈ p.nodes → n ∉ order →
    D.get? n = some ((srcs p n).length - (feeders p order n).length)
  deps_out : ∀ n, ¬ (n ∈ p.nodes ∧ n ∉ order) → D.get? n = none
  closed : ∀ pre x post, order = pre ++ x :: post →
    (srcs p x).length = (feeders p pre x).length

theorem release_fold {g : Graph N E} {p : Patch E} (h : Rep g p) {next : Id}
    (hn : next ∈ p.nodes) : ∀ (l : List Id) (D : HMap Id Nat), l.Nodup →
    (∀ i ∈ l, p.Joined next i → ∃ k, D.get? i = some (k + 1)) →
    ∃ D', l.foldlM (release g next) D = .ok D' ∧
      (∀ i, i ∈ l → p.Joined next i → ∀ k, D.get? i = some (k + 1) → D'.get? i = some k) ∧
      (∀ i, ¬ (i ∈ l ∧ p.Joined next i) → D'.get? i = D.get? i) := by
  intro l
  induction l with
  | nil =>
    intro D _ _
    exact ⟨D, rfl, fun i hi => absurd hi (by simp), fun i _ => rfl⟩
  | cons a l ih =>
    intro D hnd hpos
    rw [List.nodup_cons] at hnd
    obtain ⟨r, hr, hriff⟩ := isConnectedTo_eq h hn a
    rw [List.foldlM_cons]
    by_cases hj : p.Joined next a
    · have hrt : r = true := hriff.mpr hj
      obtain ⟨k, hk⟩ := hpos a (List.mem_cons_self ..) hj
      have hstep : release g next D a = .ok (D.insert a k) := by
        simp only [release, hr, hrt, bind, Except.bind, if_true, hk]
        rfl
      obtain ⟨D', e1, e2, e3⟩ := ih (D.insert a k) hnd.2 (by
        intro i hi hji
        rw [HMap.get?_insert, if_neg (by rintro rfl; exact hnd.1 hi)]
        exact hpos i (List.mem_cons_of_mem _ hi) hji)
      refine ⟨D', ?_, ?_, ?_⟩
      · rw [hstep]; exact e1
      · intro i hi hji k' hk'
        by_cases hia : i = a
        · subst hia
          rw [e3 i (fun h' => hnd.1 h'.1), HMap.get?_insert, if_pos rfl]
          rw [hk] at hk'
          injection hk' with hk'
          simp only [Option.some.injEq]; omega
        · refine e2 i ?_ hji k' ?_
          · rcases List.mem_cons.mp hi with h' | h'
            · exact absurd h' hia
            · exact h'
          · rw [HMap.get?_insert, if_neg hia]; exact hk'
      · intro i hi
        have hia : i ≠ a := by
          rintro rfl
          exact hi ⟨List.mem_cons_self .., hj⟩
        rw [e3 i (fun h' => hi ⟨List.mem_cons_of_mem _ h'.1, h'.2⟩), HMap.get?_insert, if_neg hia]
    · have hrf : r = false := by
        cases r
        · rfl
        · exact absurd (hriff.mp rfl) hj
      have hstep : release g next D a = .ok D := by
        simp only [release, hr, hrf, bind, Except.bind]
        rfl
      obtain ⟨D', e1, e2, e3⟩ := ih D hnd.2 (fun i hi => hpos i (List.mem_cons_of_mem _ hi))
      refine ⟨D', ?_, ?_, ?_⟩
      · rw [hstep]; exact e1
      · intro i hi hji
        have hia : i ≠ a := by rintro rfl; exact hj hji
        rcases List.mem_cons.mp hi with h' | h'
        · exact absurd h' hia
        · exact e2 i h' hji
      · intro i hi
        by_cases hia : i = a
        · subst hia
          exact e3 i (fun h' => hj h'.2)
        · exact e3 i (fun h' => hi ⟨List.mem_cons_of_mem _ h'.1, h'.2⟩)

theorem nodeWithout_some {σ : IterOrder Id} {D : HMap Id Nat} {n : Id}
    (h : nodeWithoutDependencies σ D = some n) : D.get? n = some 0 := by
  have := List.find?_some h
  simpa using this

theorem nodeWithout_none {σ : IterOrder Id} {D : HMap Id Nat}
    (h : nodeWithoutDependencies σ D = none) (n : Id) : D.get? n ≠ some 0 := by
  intro hn
  rw [nodeWithoutDependencies, List.find?_eq_none] at h
  exact h n (HMap.mem_iterKeys.mpr (by rw [hn]; rfl)) (by simpa using hn)

/-- One iteration keeps the invariant and does not abort. -/
theorem loop_step {g : Graph N E} {p : Patch E} (h : Rep g p) {D : HMap Id Nat} {order : List Id}
    (hi : Inv p D order) (σ ρ : IterOrder Id) {next : Id}
    (hn : nodeWithoutDependencies σ D = some next) :
    ∃ D', (g.allNodeIds ρ).foldlM (release g next) (D.remove next) = .ok D' ∧
      Inv p D' (order ++ [next]) := by
  classical
  have h0 := nodeWithout_some hn
  have hin : next ∈ p.nodes ∧ next ∉ order := by
    by_contra hc
    rw [hi.deps_out next hc] at h0
    cases h0
  have hcov : (srcs p next).length = (feeders p order next).length := by
    have := hi.deps_in next hin.1 hin.2
    rw [h0] at this
    injection this with this
    have := (feeders_subperm hi.nodup next (p := p)).length_le
    omega
  have hpred := (covered hi.nodup hcov).2
  -- a node fed by `next` has not been listed
  have hnot : ∀ m, p.Joined next m → m ∉ order ∧ m ≠ next := by
    intro m hm
    constructor
    · intro hmo
      obtain ⟨pre, post, hs⟩ := List.append_of_mem hmo
      have hpre : pre.Nodup := by
        have := hi.nodup
        rw [hs, List.nodup_append] at this
        exact this.1
      have := (covered hpre (hi.closed pre m post hs)).2 next hm
      exact hin.2 (by rw [hs]; exact List.mem_append_left _ this)
    · rintro rfl
      exact hin.2 (hpred _ hm)
  have hmem : ∀ m, p.Joined next m → m ∈ p.nodes := by
    rintro m ⟨c, hc, _, rfl⟩
    exact (h.ends c hc).2
  have hnd' : (order ++ [next]).Nodup := by
    rw [List.nodup_append]
    refine ⟨hi.nodup, List.nodup_singleton _, ?_⟩
    intro a ha b hb
    rw [List.mem_singleton] at hb
    subst hb
    rintro rfl
    exact hin.2 ha
  have hlen : ∀ m, p.Joined next m →
      (feeders p (order ++ [next]) m).length = (feeders p order m).length + 1 := by
    intro m hm
    rw [feeders_append, if_pos hm]; simp
  have hle : ∀ m, (feeders p (order ++ [next]) m).length ≤ (srcs p m).length :=
    fun m => (feeders_subperm hnd' m).length_le
  obtain ⟨D', e1, e2, e3⟩ := release_fold h hin.1 (g.allNodeIds ρ) (D.remove next)
    ((nodes_perm h ρ).nodup_iff.mpr h.nodupP) (by
      intro m _ hm
      have h1 := hnot m hm
      rw [HMap.get?_remove, if_neg h1.2, hi.deps_in m (hmem m hm) h1.1]
      have := hle m
      rw [hlen m hm] at this
      exact ⟨(srcs p m).length - (feeders p order m).length - 1, by
        simp only [Option.some.injEq]; omega⟩)
  refine ⟨D', e1, ⟨hnd', ?_, ?_, ?_, ?_⟩⟩
  · intro n hn'
    rw [List.mem_append, List.mem_singleton] at hn'
    rcases hn' with h' | rfl
    · exact hi.sub n h'
    · exact hin.1
  · intro m hm1 hm2
    rw [List.mem_append, List.mem_singleton, not_or] at hm2
    have hold := hi.deps_in m hm1 hm2.1
    by_cases hm : p.Joined next m
    · have := hle m
      rw [hlen m hm] at this
      have hval : (D.remove next).get? m =
          some ((srcs p m).length - ((feeders p order m).length + 1) + 1) := by
        rw [HMap.get?_remove, if_neg hm2.2, hold]
        simp only [Option.some.injEq]; omega
      rw [e2 m ((nodes_perm h ρ).mem_iff.mpr hm1) hm _ hval, hlen m hm]
    · rw [e3 m (fun h' => hm h'.2), HMap.get?_remove, if_neg hm2.2, hold, feeders_append,
        if_neg hm, List.append_nil]
  · intro m hm
    have hnj : ¬ p.Joined next m := by
      intro hj
      apply hm
      refine ⟨hmem m hj, ?_⟩
      rw [List.mem_append, List.mem_singleton, not_or]
      exact hnot m hj
    rw [e3 m (fun h' => hnj h'.2), HMap.get?_remove]
    split_ifs with hmn
    · rfl
    · apply hi.deps_out
      rintro ⟨h1, h2⟩
      apply hm
      refine ⟨h1, ?_⟩
      rw [List.mem_append, List.mem_singleton, not_or]
      exact ⟨h2, hmn⟩
  · intro pre x post hs
    rcases List.eq_nil_or_concat post with rfl | ⟨post', y, rfl⟩
    · have := List.append_inj' hs rfl
      obtain ⟨h1, h2⟩ := this
      injection h2 with h2
      subst h1; subst h2
      exact hcov
    · have hs' : order ++ [next] = (pre ++ x :: post') ++ [y] := by
        rw [hs]; simp
      have := List.append_inj' hs' rfl
      exact hi.closed pre x post' this.1

theorem loop_spec {g : Graph N E} {p : Patch E} (h : Rep g p) (τ ρ : Nat → IterOrder Id) :
    ∀ (fuel : Nat) (D : HMap Id Nat) (order : List Id), Inv p D order →
      p.nodes.length + 1 ≤ fuel + order.length →
      ∃ D' order', loop g τ ρ fuel D order = .ok order' ∧ Inv p D' order' ∧
        ∀ n, D'.get? n ≠ some 0 := by
  intro fuel
  induction fuel with
  | zero =>
    intro D order hi hf
    exfalso
    have := (List.subperm_of_subset hi.nodup hi.sub).length_le
    omega
  | succ fuel ih =>
    intro D order hi hf
    simp only [loop]
    cases hn : nodeWithoutDependencies (τ order.length) D with
    | none => exact ⟨D, order, rfl, hi, nodeWithout_none hn⟩
    | some next =>
      obtain ⟨D', h1, h2⟩ := loop_step h hi (τ order.length) (ρ order.length) hn
      obtain ⟨D'', order', h3, h4, h5⟩ := ih D' (order ++ [next]) h2 (by simp; omega)
      refine ⟨D'', order', ?_, h4, h5⟩
      simp only [h1, bind, Except.bind]
      exact h3

/-- The result of the loop: the sort is either the final order or an abort. -/
theorem sort_cases {g : Graph N E} {p : Patch E} (h : Rep g p) (σ : IterOrder Id)
    (τ ρ : Nat → IterOrder Id) :
    ∃ D order, Inv p D order ∧ (∀ n, D.get? n ≠ some 0) ∧
      sort g σ τ ρ = if order.length = p.nodes.length then .ok order else .error .panic := by
  obtain ⟨D, h1, h2⟩ := initDeps_spec h σ
  have hinit : Inv p D [] := by
    refine ⟨List.nodup_nil, by simp, ?_, ?_, ?_⟩
    · intro n hn _
      rw [h2, if_pos hn]; simp [feeders]
    · intro n hn
      rw [h2, if_neg (fun h' => hn ⟨h', by simp⟩)]
    · intro pre x post hs
      simp at hs
  obtain ⟨D', order, h3, h4, h5⟩ := loop_spec h τ ρ (g.nodeCount + 1) D [] hinit
    (by rw [nodeCount_eq h]; simp)
  refine ⟨D', order, h4, h5, ?_⟩
  simp only [sort, h1, h3, bind, Except.bind]
  rw [nodeCount_eq h]
  split_ifs <;> rfl

theorem Inv.complete_of_length {p : Patch E} {D : HMap Id Nat} {order : List Id}
    (hi : Inv p D order) (hl : order.length = p.nodes.length) (n : Id) :
    n ∈ order ↔ n ∈ p.nodes := by
  have hp : order.Perm p.nodes :=
    (List.subperm_of_subset hi.nodup hi.sub).perm_of_length_le (by omega)
  exact hp.mem_iff

theorem Inv.sources_before {p : Patch E} {D : HMap Id Nat} {order : List Id} (hi : Inv p D order)
    {a b : Id} (hj : p.Joined a b) (hb : b ∈ order) :
    ∃ before between after, order = before ++ a :: (between ++ b :: after) := by
  obtain ⟨pre, post, hs⟩ := List.append_of_mem hb
  have hpre : pre.Nodup := by
    have := hi.nodup
    rw [hs, List.nodup_append] at this
    exact this.1
  have ha := (covered hpre (hi.closed pre b post hs)).2 a hj
  obtain ⟨before, between, hs2⟩ := List.append_of_mem ha
  exact ⟨before, between, post, by rw [hs, hs2]; simp⟩

/-- A patch with a valid order is acyclic. -/
theorem acyclic_of_valid {p : Patch E} {order : List Id} (h : p.ValidOrder order) :
    p.Acyclic := by
  have hlt : ∀ a b, p.Joined a b → order.idxOf a < order.idxOf b := by
    rintro a b ⟨c, hc, rfl, rfl⟩
    obtain ⟨x, y, z, hs⟩ := h.sorted c hc
    have hnd := h.nodup
    rw [hs] at hnd ⊢
    rw [List.nodup_append] at hnd
    obtain ⟨_, h2, h3⟩ := hnd
    rw [List.nodup_cons] at h2
    have hne : c.src ≠ c.dst := by
      intro h'
      exact h2.1 (by rw [h']; simp)
    have hsx : c.src ∉ x := fun h' => h3 _ h' _ (List.mem_cons_self ..) rfl
    have hdx : c.dst ∉ x := fun h' => h3 _ h' c.dst (by simp) rfl
    rw [List.idxOf_append_of_notMem hsx, List.idxOf_append_of_notMem hdx, List.idxOf_cons_self,
      List.idxOf_cons_ne _ hne]
    omega
  have : ∀ a b, Relation.TransGen p.Joined a b → order.idxOf a < order.idxOf b := by
    intro a b hab
    induction hab with
    | single h' => exact hlt _ _ h'
    | tail _ h' ih => exact lt_trans ih (hlt _ _ h')
  intro n hn
  exact lt_irrefl _ (this n n hn)

theorem noParallel_of_srcs {p : Patch E} (h : ∀ n, (srcs p n).Nodup)
    (hid : (p.conns.map Conn.id).Nodup) : p.NoParallel := by
  unfold Patch.NoParallel
  have hc : p.conns.Nodup := hid.of_map _
  apply List.Nodup.map_on _ hc
  intro x hx y hy hxy
  injection hxy with h1 h2
  have hn := h x.dst
  unfold srcs at hn
  exact List.inj_on_of_nodup_map hn (mem_at.mpr ⟨hx, rfl⟩) (mem_at.mpr ⟨hy, h2.symm⟩) h1

theorem srcs_nodup_of_noParallel {p : Patch E} (h : p.NoParallel) (n : Id) :
    (srcs p n).Nodup := by
  unfold srcs
  have hc : p.conns.Nodup := h.of_map _
  apply List.Nodup.map_on _ (hc.filter _)
  intro x hx y hy hxy
  rw [← Patch.at', mem_at] at hx hy
  apply List.inj_on_of_nodup_map h hx.1 hy.1
  simp only [Prod.mk.injEq]
  exact ⟨hxy, (show x.dst = n from hx.2).trans (show y.dst = n from hy.2).symm⟩

/-- In an acyclic patch without parallel connections the loop lists every node. -/
theorem Inv.complete {p : Patch E} {D : HMap Id Nat} {order : List Id} (hi : Inv p D order)
    (hstuck : ∀ n, D.get? n ≠ some 0) (hends : ∀ c ∈ p.conns, c.src ∈ p.nodes)
    (hac : p.Acyclic) (hnp : p.NoParallel) : ∀ n ∈ p.nodes, n ∈ order := by
  -- every remaining node has a remaining source
  have hpred : ∀ n, n ∈ p.nodes → n ∉ order → ∃ m, m ∈ p.nodes ∧ m ∉ order ∧ p.Joined m n := by
    intro n hn hno
    by_contra hcon
    push Not at hcon
    have hsub : srcs p n ⊆ feeders p order n := by
      intro m hm
      rw [mem_srcs] at hm
      rw [mem_feeders]
      refine ⟨?_, hm⟩
      by_contra hmo
      obtain ⟨c, hc, hcs, _⟩ := id hm
      exact hcon m (hcs ▸ hends c hc) hmo hm
    have hlen := (List.subperm_of_subset (srcs_nodup_of_noParallel hnp n) hsub).length_le
    have := hi.deps_in n hn hno
    rw [show (srcs p n).length - (feeders p order n).length = 0 by omega] at this
    exact hstuck n this
  haveI : Std.Irrefl (Relation.TransGen p.Joined) := ⟨hac⟩
  haveI : IsTrans Id (Relation.TransGen p.Joined) := ⟨fun _ _ _ h1 h2 => h1.trans h2⟩
  haveI : IsStrictOrder Id (Relation.TransGen p.Joined) := {}
  have hfin : {n | n ∈ p.nodes ∧ n ∉ order}.Finite :=
    (p.nodes.finite_toSet).subset (fun n hn => hn.1)
  have hwf := hfin.wellFoundedOn (r := Relation.TransGen p.Joined)
  intro n hn
  by_contra hno
  refine hwf.induction (x := n) (P := fun _ => False) ⟨hn, hno⟩ ?_
  intro m hm hmin
  obtain ⟨x, hx1, hx2, hx3⟩ := hpred m hm.1 hm.2
  exact hmin x ⟨hx1, hx2⟩ (.single hx3)

theorem joined_of_shows {g : Graph N E} {p q : Patch E} (hp : g.Shows p) (hq : g.Shows q)
    {a b : Id} (h : p.Joined a b) : q.Joined a b := by
  obtain ⟨c, hc, h1, h2⟩ := h
  obtain ⟨c', hc', _, h3, h4, _⟩ := shows_conn hp hq hc
  exact ⟨c', hc', h3.trans h1, h4.trans h2⟩

theorem acyclic_of_shows {g : Graph N E} {p q : Patch E} (hp : g.Shows p) (hq : g.Shows q)
    (h : p.Acyclic) : q.Acyclic := by
  have : q.Joined = p.Joined := by
    funext a b
    exact propext ⟨joined_of_shows hq hp, joined_of_shows hp hq⟩
  unfold Patch.Acyclic
  rw [this]
  exact h

theorem noParallel_of_shows {g : Graph N E} {p q : Patch E} (hp : g.Shows p) (hq : g.Shows q)
    (h : p.NoParallel) : q.NoParallel := by
  apply List.Nodup.map_on _ (hq.ids.of_map _)
  intro x hx y hy hxy
  injection hxy with h1 h2
  obtain ⟨x', hx', x1, x2, x3, _⟩ := shows_conn hq hp hx
  obtain ⟨y', hy', y1, y2, y3, _⟩ := shows_conn hq hp hy
  have : x' = y' := by
    apply List.inj_on_of_nodup_map h hx' hy'
    simp only [Prod.mk.injEq]
    exact ⟨by rw [x2, y2, h1], by rw [x3, y3, h2]⟩
  subst this
  exact List.inj_on_of_nodup_map hq.ids hx hy (by rw [← x1, ← y1])

theorem validOrder_of_shows {g : Graph N E} {p q : Patch E} (hp : g.Shows p) (hq : g.Shows q)
    {order : List Id} (h : p.ValidOrder order) : q.ValidOrder order := by
  refine ⟨h.nodup, ?_, ?_⟩
  · intro n; rw [h.complete, hp.nodes, hq.nodes]
  · intro c hc
    obtain ⟨c', hc', _, h2, h3, _⟩ := shows_conn hq hp hc
    obtain ⟨x, y, z, hs⟩ := h.sorted c' hc'
    exact ⟨x, y, z, by rw [hs, h2, h3]⟩

/-- A successful sort of a represented patch. -/
theorem sort_ok {g : Graph N E} {p : Patch E} (h : Rep g p) {σ : IterOrder Id}
    {τ ρ : Nat → IterOrder Id} {order : List Id} (hs : sort g σ τ ρ = .ok order) :
    p.ValidOrder order ∧ p.NoParallel := by
  obtain ⟨D, order', hi, hst, hs'⟩ := sort_cases h σ τ ρ
  rw [hs] at hs'
  split_ifs at hs' with hlen
  injection hs' with hs'
  subst hs'
  refine ⟨⟨hi.nodup, hi.complete_of_length hlen, ?_⟩, ?_⟩
  · intro c hc
    exact hi.sources_before ⟨c, hc, rfl, rfl⟩
      ((hi.complete_of_length hlen _).mpr (h.ends c hc).2)
  · apply noParallel_of_srcs _ h.nodupC
    intro n
    by_cases hn : n ∈ order
    · obtain ⟨pre, post, hsp⟩ := List.append_of_mem hn
      have hpre : pre.Nodup := by
        have := hi.nodup
        rw [hsp, List.nodup_append] at this
        exact this.1
      exact (covered hpre (hi.closed pre n post hsp)).1
    · have : srcs p n = [] := by
        rw [List.eq_nil_iff_forall_not_mem]
        intro m hm
        obtain ⟨c, hc, _, hd⟩ := mem_srcs.mp hm
        exact hn ((hi.complete_of_length hlen _).mpr (hd ▸ (h.ends c hc).2))
      rw [this]; exact List.nodup_nil

end TopologicalSort
end Rawdio
