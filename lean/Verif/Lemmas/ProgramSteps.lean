import Verif.Lemmas.OfflineExample

/-! Helper lemmas: programs made of parts that only create nodes, request changes, or connect nodes. -/

namespace Rawdio
namespace ProgramSteps

open Network

variable {P C : Type}

theorem afterAll_append (h : Holding) (a b : List (ApiCall P C)) : h.afterAll (a ++ b) = (h.afterAll a).afterAll b :=
  List.foldl_append ..

/-- Requests to nodes that are held. -/
theorem changes (cs : List (ApiCall P C)) (h : Holding) (hc : ∀ c ∈ cs, ∃ n r, c = .change n r ∧ h.Holds n) (mc : Nat) :
    Allowed (fun h c => h.Typed c ∧ h.Careful mc c) h cs ∧ h.afterAll cs = h := by
  induction cs with
  | nil => exact ⟨trivial, rfl⟩
  | cons c cs ih =>
    obtain ⟨n, r, rfl, hn⟩ := hc c (by simp)
    have := ih fun c hc' => hc c (by simp [hc'])
    exact ⟨⟨⟨hn, trivial⟩, this.1⟩, this.2⟩

/-- New nodes, each with some requests to it. -/
theorem creates {α : Type} (node : α → Dsp P) (rs : α → List C) (as : List α) : ∀ (h : Holding) (mc : Nat),
    (as.map fun a => (node a).id).Nodup → (∀ a ∈ as, ∀ x ∈ h.nodes, x.id ≠ (node a).id) →
    (∀ a ∈ as, (node a).inputCount ≤ mc ∧ (node a).outputCount ≤ mc) → h.nodes.length + as.length ≤ 1022 →
    Allowed (fun h c => h.Typed c ∧ h.Careful mc c) h (as.flatMap fun a =>
      ApiCall.create (node a).id (node a).inputCount (node a).outputCount (node a).state ::
        (rs a).map fun r => .change ⟨(node a).id, (node a).outputCount⟩ r) ∧
      h.afterAll (as.flatMap fun a =>
      (ApiCall.create (node a).id (node a).inputCount (node a).outputCount (node a).state : ApiCall P C) ::
        (rs a).map fun r => .change ⟨(node a).id, (node a).outputCount⟩ r) =
      { h with nodes := h.nodes ++ as.map fun a => ⟨(node a).id, (node a).inputCount, (node a).outputCount⟩ } := by
  induction as with
  | nil => intro h mc _ _ _ _; exact ⟨trivial, by simp [Holding.afterAll]⟩
  | cons a as ih =>
    intro h mc hn hf hc hl
    rw [List.map_cons, List.nodup_cons] at hn
    rw [List.length_cons] at hl
    have h1 := changes ((rs a).map fun r => (.change ⟨(node a).id, (node a).outputCount⟩ r : ApiCall P C))
      { h with nodes := h.nodes ++ [⟨(node a).id, (node a).inputCount, (node a).outputCount⟩] } (by
        intro c hc'
        obtain ⟨r, _, rfl⟩ := List.mem_map.mp hc'
        exact ⟨_, _, rfl, _, List.mem_append_right _ (List.mem_singleton.mpr rfl), rfl, rfl⟩) mc
    have h2 := ih { h with nodes := h.nodes ++ [⟨(node a).id, (node a).inputCount, (node a).outputCount⟩] } mc hn.2 (by
      intro b hb x hx
      rw [List.mem_append, List.mem_singleton] at hx
      rcases hx with hx | rfl
      · exact hf b (by simp [hb]) x hx
      · intro he
        exact hn.1 (List.mem_map.mpr ⟨b, hb, he.symm⟩)) (fun b hb => hc b (by simp [hb])) (by
        rw [List.length_append, List.length_singleton]; omega)
    rw [List.flatMap_cons, List.cons_append]
    constructor
    · refine ⟨⟨fun x hx => hf a (by simp) x hx, (hc a (by simp)).1, (hc a (by simp)).2, by omega⟩, ?_⟩
      rw [allowed_append]
      refine ⟨h1.1, ?_⟩
      have h3 := h2.1
      rw [← h1.2] at h3
      exact h3
    · have h3 := h2.2
      rw [← h1.2, ← afterAll_append] at h3
      rw [Holding.afterAll, List.foldl_cons]
      refine h3.trans ?_
      rw [h1.2]
      simp

/-- New connections that lead up. -/
theorem connects (rank : Id → Nat) (ps : List (GraphNode × GraphNode)) : ∀ (h : Holding) (mc : Nat),
    (∀ l ∈ h.links, rank l.src < rank l.dst) → (∀ p ∈ ps, rank p.1.id < rank p.2.id) →
    (∀ p ∈ ps, h.Holds p.1 ∧ h.Holds p.2) → (ps.map fun p => (p.1.id, p.2.id)).Nodup →
    (∀ p ∈ ps, ¬ h.Joined p.1.id p.2.id) →
    Allowed (fun h c => h.Typed c ∧ h.Careful mc c) h (ps.map fun p => (.connectTo p.1 p.2 : ApiCall P C)) ∧
      h.afterAll (ps.map fun p => (.connectTo p.1 p.2 : ApiCall P C)) =
        { h with links := h.links ++ ps.map fun p => ⟨p.1.id, p.2.id, 0, 0, p.1.outputCount⟩ } := by
  induction ps with
  | nil => intro h mc _ _ _ _ _; exact ⟨trivial, by simp [Holding.afterAll]⟩
  | cons p ps ih =>
    intro h mc h1 h2 h3 h4 h5
    rw [List.map_cons, List.nodup_cons] at h4
    have h6 : ∀ l ∈ h.links ++ [(⟨p.1.id, p.2.id, 0, 0, p.1.outputCount⟩ : Link)], rank l.src < rank l.dst := by
      intro l hl
      rw [List.mem_append, List.mem_singleton] at hl
      rcases hl with hl | rfl
      · exact h1 l hl
      · exact h2 p (by simp)
    obtain ⟨i1, i2⟩ := ih (h.after (.connectTo p.1 p.2 : ApiCall P C)) mc h6 (fun q hq => h2 q (by simp [hq]))
      (fun q hq => h3 q (by simp [hq])) h4.2 (by
        rintro q hq ⟨l, hl, l1, l2⟩
        have hl : l ∈ h.links ++ [(⟨p.1.id, p.2.id, 0, 0, p.1.outputCount⟩ : Link)] := hl
        rw [List.mem_append, List.mem_singleton] at hl
        rcases hl with hl | rfl
        · exact h5 q (by simp [hq]) ⟨l, hl, l1, l2⟩
        · exact h4.1 (List.mem_map.mpr ⟨q, hq, by rw [← l1, ← l2]⟩))
    refine ⟨⟨⟨h3 p (by simp), h5 p (by simp), OfflineExample.acyclic_of_rank rank h6⟩, i1⟩, i2.trans ?_⟩
    simp [Holding.after]

theorem allowed_left {a b : Holding → ApiCall P C → Prop} (cs : List (ApiCall P C)) : ∀ h : Holding,
    Allowed (fun h c => a h c ∧ b h c) h cs → Allowed a h cs := by
  induction cs with
  | nil => intro h _; trivial
  | cons c cs ih => intro h h1; exact ⟨h1.1.1, ih _ h1.2⟩

/-- A program that does everything at first. -/
theorem at_first (cs : List (ApiCall P C)) (n : Nat) :
    (List.range n).flatMap (fun i => if i = 0 then cs else []) = if n = 0 then [] else cs := by
  induction n with
  | zero => rfl
  | succ n ih =>
    rw [List.range_succ, List.flatMap_append, ih]
    by_cases hn : n = 0
    · subst hn; simp
    · simp [hn]

/-- A program that builds everything at first. -/
theorem program {cs : List (ApiCall P C)} (hb : ∀ c ∈ cs, c.Builds) (ht : Allowed Holding.Typed Holding.empty cs)
    (hs : .start ∈ cs) : Program fun i => if i = 0 then cs else [] := by
  refine ⟨by simpa using hb, by simpa using ht, by simpa using hs, ?_⟩
  intro i hi c hc
  simp only [show ¬ i = 0 by omega, if_false] at hc
  cases hc

/-! ## Programs of one shape -/

/-- The handle of a node. -/
def handleOf (d : Dsp P) : GraphNode := ⟨d.id, d.outputCount⟩

/-- Nodes with requests, more requests, connections and possibly the output. -/
def build (parts : List (Dsp P × List C)) (more : List (GraphNode × C)) (pairs : List (GraphNode × GraphNode))
    (out : Option GraphNode) : List (ApiCall P C) :=
  (parts.flatMap fun a => ApiCall.create a.1.id a.1.inputCount a.1.outputCount a.1.state ::
    a.2.map fun r => .change (handleOf a.1) r) ++ more.map (fun x => .change x.1 x.2) ++
    pairs.map (fun p => .connectTo p.1 p.2) ++ (out.toList.map .connectToOutput ++ [.start])

variable {parts : List (Dsp P × List C)} {more : List (GraphNode × C)} {pairs : List (GraphNode × GraphNode)}
  {out : Option GraphNode}

theorem mem_build {c : ApiCall P C} (h : c ∈ build parts more pairs out) :
    (∃ a ∈ parts, c = .create a.1.id a.1.inputCount a.1.outputCount a.1.state) ∨
    (∃ a ∈ parts, ∃ r ∈ a.2, c = .change (handleOf a.1) r) ∨ (∃ x ∈ more, c = .change x.1 x.2) ∨
    (∃ p ∈ pairs, c = .connectTo p.1 p.2) ∨ (∃ x ∈ out, c = .connectToOutput x) ∨ c = .start := by
  simp only [build, List.mem_append, List.mem_flatMap, List.mem_cons, List.mem_map, List.not_mem_nil, or_false,
    Option.mem_toList] at h
  rcases h with ((⟨a, ha, rfl | ⟨r, hr, rfl⟩⟩ | ⟨x, hx, rfl⟩) | ⟨p, hp, rfl⟩) | ⟨x, hx, rfl⟩ | rfl
  · exact .inl ⟨a, ha, rfl⟩
  · exact .inr (.inl ⟨a, ha, r, hr, rfl⟩)
  · exact .inr (.inr (.inl ⟨x, hx, rfl⟩))
  · exact .inr (.inr (.inr (.inl ⟨p, hp, rfl⟩)))
  · exact .inr (.inr (.inr (.inr (.inl ⟨x, hx, rfl⟩))))
  · exact .inr (.inr (.inr (.inr (.inr rfl))))

theorem build_builds : ∀ c ∈ build parts more pairs out, c.Builds := by
  intro c hc
  rcases mem_build hc with ⟨a, _, rfl⟩ | ⟨a, _, r, _, rfl⟩ | ⟨x, _, rfl⟩ | ⟨p, _, rfl⟩ | ⟨y, _, rfl⟩ | rfl <;> trivial

theorem build_starts : .start ∈ build parts more pairs out := by simp [build]

theorem build_input : input (build parts more pairs out) = none := by
  rw [input, List.findSome?_eq_none_iff]
  intro c hc
  rcases mem_build (List.mem_reverse.mp hc) with ⟨a, _, rfl⟩ | ⟨a, _, r, _, rfl⟩ | ⟨x, _, rfl⟩ | ⟨p, _, rfl⟩ | ⟨y, _, rfl⟩ | rfl <;>
    rfl

theorem build_output : output (build parts more pairs out) = out.map GraphNode.id := by
  cases out with
  | some out =>
    rw [output, build, List.reverse_append]
    rfl
  | none =>
    rw [output, Option.map_none, List.findSome?_eq_none_iff]
    intro c hc
    rcases mem_build (List.mem_reverse.mp hc) with ⟨a, _, rfl⟩ | ⟨a, _, r, _, rfl⟩ | ⟨x, _, rfl⟩ | ⟨p, _, rfl⟩ | ⟨y, hy, rfl⟩ | rfl <;>
      first | rfl | cases hy

theorem made_change {α : Type} (f : α → GraphNode) (g : α → C) (l : List α) :
    made (l.map fun x => (ApiCall.change (f x) (g x) : ApiCall P C)) = [] := by
  rw [made, List.filterMap_map]
  exact List.filterMap_eq_nil_iff.mpr fun _ _ => rfl

theorem links_change {α : Type} (f : α → GraphNode) (g : α → C) (l : List α) :
    links (l.map fun x => (ApiCall.change (f x) (g x) : ApiCall P C)) = [] := by
  rw [links, List.filterMap_map]
  exact List.filterMap_eq_nil_iff.mpr fun _ _ => rfl

theorem requests_change {α : Type} (f : α → GraphNode) (g : α → C) (l : List α) :
    requests (l.map fun x => (ApiCall.change (f x) (g x) : ApiCall P C)) = l.map fun x => ((f x).id, g x) := by
  rw [requests, List.filterMap_map]
  exact List.filterMap_eq_map' (f := fun x => ((f x).id, g x)) ▸ rfl

theorem build_made : made (build parts more pairs out) = parts.map Prod.fst := by
  rw [build, made_append, made_append, made_append, made_change]
  have h1 : made (pairs.map fun p => (ApiCall.connectTo p.1 p.2 : ApiCall P C)) = [] := by
    rw [made, List.filterMap_map]
    exact List.filterMap_eq_nil_iff.mpr fun _ _ => rfl
  have h2 : made (parts.flatMap fun a => ApiCall.create a.1.id a.1.inputCount a.1.outputCount a.1.state ::
      a.2.map fun r => (.change (handleOf a.1) r : ApiCall P C)) = parts.map Prod.fst := by
    induction parts with
    | nil => rfl
    | cons a as ih =>
      rw [List.flatMap_cons, made_append, ih, List.map_cons]
      have := made_change (P := P) (fun _ : C => handleOf a.1) id a.2
      simp only [id] at this
      rw [← List.singleton_append, made_append, this]
      rfl
  rw [h1, h2, List.append_nil, List.append_nil]
  cases out <;> exact List.append_nil _

theorem build_links : links (build parts more pairs out) =
    pairs.map fun p => ⟨p.1.id, p.2.id, 0, 0, p.1.outputCount⟩ := by
  rw [build, links_append, links_append, links_append, links_change]
  have h1 : links (pairs.map fun p => (ApiCall.connectTo p.1 p.2 : ApiCall P C)) =
      pairs.map fun p => ⟨p.1.id, p.2.id, 0, 0, p.1.outputCount⟩ := by
    rw [links, List.filterMap_map]
    exact List.filterMap_eq_map' (f := fun p : GraphNode × GraphNode => (⟨p.1.id, p.2.id, 0, 0, p.1.outputCount⟩ : Link)) ▸ rfl
  have h2 : links (parts.flatMap fun a => ApiCall.create a.1.id a.1.inputCount a.1.outputCount a.1.state ::
      a.2.map fun r => (.change (handleOf a.1) r : ApiCall P C)) = [] := by
    induction parts with
    | nil => rfl
    | cons a as ih =>
      rw [List.flatMap_cons, links_append, ih]
      have := links_change (P := P) (fun _ : C => handleOf a.1) id a.2
      simp only [id] at this
      rw [← List.singleton_append, links_append, this]
      rfl
  rw [h1, h2, List.append_nil, List.nil_append]
  cases out <;> exact List.append_nil _

theorem build_requests : requests (build parts more pairs out) =
    (parts.flatMap fun a => a.2.map fun r => (a.1.id, r)) ++ more.map fun x => (x.1.id, x.2) := by
  rw [build, requests_append, requests_append, requests_append, requests_change]
  have h1 : requests (pairs.map fun p => (ApiCall.connectTo p.1 p.2 : ApiCall P C)) = [] := by
    rw [requests, List.filterMap_map]
    exact List.filterMap_eq_nil_iff.mpr fun _ _ => rfl
  have h2 : requests (parts.flatMap fun a => ApiCall.create a.1.id a.1.inputCount a.1.outputCount a.1.state ::
      a.2.map fun r => (.change (handleOf a.1) r : ApiCall P C)) = parts.flatMap fun a => a.2.map fun r => (a.1.id, r) := by
    induction parts with
    | nil => rfl
    | cons a as ih =>
      rw [List.flatMap_cons, requests_append, ih, List.flatMap_cons]
      have := requests_change (P := P) (fun _ : C => handleOf a.1) id a.2
      simp only [id] at this
      rw [← List.singleton_append, requests_append, this]
      rfl
  rw [h1, h2, List.append_nil]
  cases out <;> exact List.append_nil _

/-- Such a program is careful. -/
theorem build_allowed (mc : Nat) (hid : (parts.map fun a => a.1.id).Nodup)
    (hch : ∀ a ∈ parts, a.1.inputCount ≤ mc ∧ a.1.outputCount ≤ mc) (hl : parts.length ≤ 1022)
    (hmore : ∀ x ∈ more, x.1 ∈ parts.map fun a => handleOf a.1)
    (hpairs : ∀ p ∈ pairs, p.1 ∈ (parts.map fun a => handleOf a.1) ∧ p.2 ∈ parts.map fun a => handleOf a.1)
    (hout : ∀ x ∈ out, x ∈ parts.map fun a => handleOf a.1) (rank : Id → Nat) (hr : ∀ p ∈ pairs, rank p.1.id < rank p.2.id)
    (hn : (pairs.map fun p => (p.1.id, p.2.id)).Nodup) :
    Allowed (fun h c => h.Typed c ∧ h.Careful mc c) Holding.empty (build parts more pairs out) := by
  have h1 := creates (fun a : Dsp P × List C => a.1) (fun a => a.2) parts Holding.empty mc hid (by simp [Holding.empty])
    hch (by simpa [Holding.empty] using hl)
  have hh : ∀ (ls : List Link) (x : GraphNode), x ∈ (parts.map fun a => handleOf a.1) →
      Holding.Holds ⟨Holding.empty.nodes ++ parts.map fun a => ⟨a.1.id, a.1.inputCount, a.1.outputCount⟩, ls⟩ x := by
    intro ls x hx
    obtain ⟨a, ha, rfl⟩ := List.mem_map.mp hx
    exact ⟨_, List.mem_append_right _ (List.mem_map.mpr ⟨a, ha, rfl⟩), rfl, rfl⟩
  have h2 := changes (more.map fun x => (.change x.1 x.2 : ApiCall P C))
    ⟨Holding.empty.nodes ++ parts.map fun a => ⟨a.1.id, a.1.inputCount, a.1.outputCount⟩, Holding.empty.links⟩ (by
      intro c hc
      obtain ⟨x, hx, rfl⟩ := List.mem_map.mp hc
      exact ⟨_, _, rfl, hh _ _ (hmore x hx)⟩) mc
  have h3 := connects (P := P) (C := C) rank pairs
    ⟨Holding.empty.nodes ++ parts.map fun a => ⟨a.1.id, a.1.inputCount, a.1.outputCount⟩, Holding.empty.links⟩ mc
    (by simp [Holding.empty]) hr (fun p hp => ⟨hh _ _ (hpairs p hp).1, hh _ _ (hpairs p hp).2⟩) hn
    (by simp [Holding.empty, Holding.Joined])
  simp only [build, handleOf]
  rw [allowed_append, allowed_append, allowed_append, afterAll_append, afterAll_append, afterAll_append]
  refine ⟨⟨⟨h1.1, ?_⟩, ?_⟩, ?_⟩
  · rw [h1.2]
    exact h2.1
  · rw [h1.2, h2.2]
    exact h3.1
  · rw [h1.2, h2.2, h3.2]
    cases out with
    | none => exact ⟨⟨trivial, trivial⟩, trivial⟩
    | some out => exact ⟨⟨hh _ _ (hout out rfl), trivial⟩, ⟨trivial, trivial⟩, trivial⟩

theorem build_plain (hw : ∀ p ∈ pairs, ∀ a ∈ parts, a.1.id = p.1.id → a.1.outputCount ≤ p.1.outputCount) :
    Plain (made (build parts more pairs out)) (links (build parts more pairs out)) (input (build parts more pairs out)) := by
  rw [build_input, build_links, build_made]
  constructor
  · simp
  · intro l hl _ _ _ d hd hid
    obtain ⟨p, hp, rfl⟩ := List.mem_map.mp hl
    obtain ⟨a, ha, rfl⟩ := List.mem_map.mp hd
    exact hw p hp a ha hid

end ProgramSteps

end Rawdio
