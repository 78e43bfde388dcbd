import Verif.Spec.RowExamples
import Verif.Lemmas.ProgramSteps
import Verif.Lemmas.MixedHistory

/-! Helper lemmas about nodes of different kinds in a row. -/

namespace Rawdio
namespace RowExamples

open Network ProgramSteps

variable {P C : Type} {sr mf : Nat}

/-- The connection to the output. -/
def last (toOutput : Bool) (hs : List GraphNode) : Option GraphNode := if toOutput then hs.getLast? else none

theorem connectNodes_some (b : Bool) (hs : List GraphNode) : ∀ h : GraphNode, (hs ≠ [] ∨ b = true) →
    connectNodes ((h :: hs).map Stage.node ++ if b then [.output] else []) =
      some (((h :: hs).zip hs).map (fun p => (ApiCall.connectTo p.1 p.2 : ApiCall P C)) ++
        (last b (h :: hs)).toList.map .connectToOutput) := by
  induction hs with
  | nil =>
    intro h hb
    cases b with
    | true => rfl
    | false => simp at hb
  | cons k hs ih =>
    intro h _
    by_cases hs0 : hs ≠ [] ∨ b = true
    · have := ih k hs0
      rw [List.map_cons, List.cons_append]
      have hl : last b (h :: k :: hs) = last b (k :: hs) := by
        simp only [last, List.getLast?_cons_cons]
      rw [hl]
      rcases hs with _ | ⟨g, hs⟩
      · have hb : b = true := by simpa using hs0
        subst hb
        rfl
      · rw [List.map_cons, List.map_cons, List.cons_append, List.cons_append] at *
        rw [connectNodes, this]
        simp
    · have h1 : hs = [] := by by_contra h1; exact hs0 (.inl h1)
      have h2 : b = false := by cases b <;> simp_all
      subst h1 h2
      rfl

theorem connectNodes_row (b : Bool) (hs : List GraphNode) :
    (connectNodes (hs.map Stage.node ++ if b then [.output] else [])).getD [] =
      ((hs.zip hs.tail).map (fun p => (ApiCall.connectTo p.1 p.2 : ApiCall P C)) ++
        (last b hs).toList.map .connectToOutput) := by
  cases hs with
  | nil => cases b <;> rfl
  | cons h hs =>
    by_cases h0 : hs ≠ [] ∨ b = true
    · rw [connectNodes_some b hs h h0]
      rfl
    · have h1 : hs = [] := by by_contra h1; exact h0 (.inl h1)
      have h2 : b = false := by cases b <;> simp_all
      subst h1 h2
      rfl

/-- A node for each part. -/
def Nodes (sr mf : Nat) (parts : List Part) (nodes : List (Dsp MixedNode)) : Prop :=
  List.Forall₂ (fun p d => p.kind.make sr mf p.id = .ok d ∧ d.id = p.id ∧ d.inputCount = p.kind.inputs ∧
    d.outputCount = p.kind.outputs) parts nodes

theorem nodes_ok (hm : 0 < mf) (parts : List Part) (hu : ∀ p ∈ parts, p.kind.Usable) :
    ∃ nodes, parts.mapM (fun p => p.kind.make sr mf p.id) = .ok nodes ∧ Nodes sr mf parts nodes := by
  induction parts with
  | nil => exact ⟨[], rfl, .nil⟩
  | cons p ps ih =>
    obtain ⟨d, h1, h2⟩ := NodeKind.make_ok (sr := sr) hm p.id p.kind (hu p (by simp))
    obtain ⟨ds, i1, i2⟩ := ih fun q hq => hu q (by simp [hq])
    refine ⟨d :: ds, ?_, .cons ⟨h1, h2⟩ i2⟩
    rw [List.mapM_cons, h1, i1]
    rfl

/-- The calls, in one shape. -/
def rowCalls (nodes : List (Dsp MixedNode)) (parts : List Part) (later : List (Nat × MixedRequest)) (toOutput : Bool) :
    List (ApiCall MixedNode MixedRequest) :=
  build ((nodes.zip parts).map fun d => (d.1, d.2.requests))
    (later.filterMap fun x => nodes[x.1]?.map fun d => (handleOf d, x.2))
    ((nodes.map handleOf).zip (nodes.map handleOf).tail) (last toOutput (nodes.map handleOf))

theorem program_eq {parts : List Part} {nodes : List (Dsp MixedNode)} {later : List (Nat × MixedRequest)} {b : Bool}
    (h : parts.mapM (fun p => p.kind.make sr mf p.id) = .ok nodes) :
    program sr mf parts later b = .ok (rowCalls nodes parts later b) := by
  rw [program, h]
  simp only [bind, Except.bind, pure, Except.pure]
  have h1 : nodes.map (fun d => Stage.node (AdsrExample.handle d)) = (nodes.map handleOf).map Stage.node := by
    rw [List.map_map]
    rfl
  rw [h1, connectNodes_row, rowCalls, build, List.flatMap_map, List.map_filterMap]
  simp only [List.append_assoc, Option.map_map]
  rfl

variable {parts : List Part} {nodes : List (Dsp MixedNode)} {later : List (Nat × MixedRequest)} {b : Bool}

theorem nodes_ids (h : Nodes sr mf parts nodes) : nodes.map Dsp.id = parts.map Part.id := by
  induction h with
  | nil => rfl
  | cons h _ ih => rw [List.map_cons, List.map_cons, h.2.1, ih]

theorem nodes_fst (h : Nodes sr mf parts nodes) : (nodes.zip parts).map Prod.fst = nodes := by
  induction h with
  | nil => rfl
  | cons h _ ih => rw [List.zip_cons_cons, List.map_cons, ih]

theorem row_made (h : Nodes sr mf parts nodes) : made (rowCalls nodes parts later b) = nodes := by
  rw [rowCalls, build_made, List.map_map]
  exact nodes_fst h

theorem row_kinds (h : Nodes sr mf parts nodes) :
    NodeKind.Made sr mf (parts.map fun p => (p.id, p.kind)) nodes := by
  induction h with
  | nil => exact .nil
  | cons h _ ih => exact .cons h.1 ih

theorem nodes_get (h : Nodes sr mf parts nodes) (j : Nat) : (nodes[j]?).map Dsp.id = (parts[j]?).map Part.id := by
  have := congrArg (·[j]?) (nodes_ids h)
  simpa using this

theorem asked_nodes (h : Nodes sr mf parts nodes) (rs : List (Nat × MixedRequest)) :
    (rs.filterMap fun x => nodes[x.1]?.map fun d => (handleOf d, x.2)).map (fun x => (x.1.id, x.2)) = asked parts rs := by
  rw [asked, List.map_filterMap]
  congr 1
  funext x
  have := nodes_get h x.1
  cases h1 : nodes[x.1]? with
  | none =>
    rw [h1] at this
    rw [Option.map_none] at this
    have h2 : parts[x.1]? = none := by
      cases h2 : parts[x.1]? with
      | none => rfl
      | some p => rw [h2] at this; cases this
    rw [h2]
    rfl
  | some d =>
    rw [h1] at this
    cases h2 : parts[x.1]? with
    | none => rw [h2] at this; cases this
    | some p =>
      rw [h2] at this
      injection this with this
      simp only [Option.map_some, handleOf, this]

theorem row_requests (h : Nodes sr mf parts nodes) : requests (rowCalls nodes parts later b) = allRequests parts later := by
  rw [rowCalls, build_requests, allRequests, List.flatMap_map, asked_nodes h]
  congr 1
  induction h with
  | nil => rfl
  | cons h _ ih => rw [List.zip_cons_cons, List.flatMap_cons, List.flatMap_cons, ih, h.2.1]

theorem zip_tail_mem {α : Type} {l : List α} {p : α × α} (h : p ∈ l.zip l.tail) :
    ∃ i, ∃ hi : i + 1 < l.length, p = (l[i], l[i + 1]) := by
  obtain ⟨i, hi, rfl⟩ := List.mem_iff_getElem.mp h
  rw [List.length_zip, List.length_tail] at hi
  refine ⟨i, by omega, ?_⟩
  simp

theorem row_allowed (mc : Nat) (h : Nodes sr mf parts nodes) (hid : (parts.map Part.id).Nodup)
    (hch : ∀ p ∈ parts, p.kind.inputs ≤ mc ∧ p.kind.outputs ≤ mc) (hl : parts.length ≤ 1022) :
    Allowed (fun h c => h.Typed c ∧ h.Careful mc c) Holding.empty (rowCalls nodes parts later b) := by
  have hp : ((nodes.zip parts).map fun d => (d.1, d.2.requests)).map (fun a => handleOf a.1) = nodes.map handleOf := by
    conv_rhs => rw [← nodes_fst h]
    rw [List.map_map, List.map_map]
    rfl
  have hi : ((nodes.zip parts).map fun d => (d.1, d.2.requests)).map (fun a => a.1.id) = nodes.map Dsp.id := by
    conv_rhs => rw [← nodes_fst h]
    rw [List.map_map, List.map_map]
    rfl
  have hn : (nodes.map Dsp.id).Nodup := by rw [nodes_ids h]; exact hid
  have hh : (nodes.map handleOf).map GraphNode.id = nodes.map Dsp.id := by rw [List.map_map]; rfl
  have hlen : (nodes.map Dsp.id).length = (nodes.map handleOf).length := by rw [List.length_map, List.length_map]
  have hget : ∀ i (hi : i < (nodes.map handleOf).length), ((nodes.map handleOf)[i]).id =
      (nodes.map Dsp.id)[i]'(by rw [hlen]; exact hi) := by
    intro i hi
    simp [handleOf]
  refine build_allowed mc (by rw [hi]; exact hn) ?_ ?_ ?_ ?_ ?_ (fun i => (nodes.map Dsp.id).idxOf i) ?_ ?_
  · intro a ha
    obtain ⟨x, hx, rfl⟩ := List.mem_map.mp ha
    have : x.1.inputCount = x.2.kind.inputs ∧ x.1.outputCount = x.2.kind.outputs := by
      clear ha hp hi hn hh hlen hget hid hch hl
      induction h with
      | nil => cases hx
      | cons h _ ih =>
        rw [List.zip_cons_cons, List.mem_cons] at hx
        rcases hx with rfl | hx
        · exact h.2.2
        · exact ih hx
    have h2 := hch x.2 (List.of_mem_zip hx).2
    rw [this.1, this.2]
    exact h2
  · rw [List.length_map, List.length_zip]
    omega
  · intro x hx
    rw [hp]
    obtain ⟨y, _, hy⟩ := List.mem_filterMap.mp hx
    cases hd : nodes[y.1]? with
    | none => rw [hd] at hy; cases hy
    | some d =>
      rw [hd] at hy
      injection hy with hy
      rw [← hy]
      exact List.mem_map_of_mem (List.mem_of_getElem? hd)
  · intro p hp'
    rw [hp]
    have := List.of_mem_zip (a := p.1) (b := p.2) hp'
    exact ⟨this.1, List.mem_of_mem_tail this.2⟩
  · intro x hx
    rw [hp]
    cases b with
    | false => cases hx
    | true => exact List.mem_of_getLast? hx
  · intro p hp'
    obtain ⟨i, hi, rfl⟩ := zip_tail_mem hp'
    simp only [hget]
    rw [hn.idxOf_getElem, hn.idxOf_getElem]
    omega
  · have h1 : (((nodes.map handleOf).zip (nodes.map handleOf).tail).map fun p => (p.1.id, p.2.id)).map Prod.snd =
        (nodes.map Dsp.id).tail := by
      have : (Prod.snd ∘ fun p : GraphNode × GraphNode => (p.1.id, p.2.id)) = GraphNode.id ∘ Prod.snd := rfl
      rw [List.map_map, this, ← List.map_map, List.map_snd_zip (by rw [List.length_tail]; omega), List.map_tail, hh]
    apply List.Nodup.of_map Prod.snd
    rw [h1]
    exact hn.sublist (List.tail_sublist _)

theorem row_plain (h : Nodes sr mf parts nodes) (hid : (parts.map Part.id).Nodup) :
    Plain (made (rowCalls nodes parts later b)) (links (rowCalls nodes parts later b)) (input (rowCalls nodes parts later b)) := by
  apply build_plain
  intro p hp a ha hpa
  have h1 := List.of_mem_zip (a := p.1) (b := p.2) hp
  obtain ⟨d, hd, hd'⟩ := List.mem_map.mp h1.1
  obtain ⟨x, hx, rfl⟩ := List.mem_map.mp ha
  have h2 := (List.of_mem_zip (a := x.1) (b := x.2) hx).1
  have hn : (nodes.map Dsp.id).Nodup := by rw [nodes_ids h]; exact hid
  rw [← hd'] at hpa ⊢
  have : x.1 = d := List.inj_on_of_nodup_map hn h2 hd hpa
  rw [this]
  exact le_refl _

/-! ## Signals along the row -/

/-- The connections of a row. -/
def rowLinks (ps : List Part) : List Link := (ps.zip ps.tail).map fun p => ⟨p.1.id, p.2.id, 0, 0, p.1.kind.outputs⟩

theorem row_links (h : Nodes sr mf parts nodes) : links (rowCalls nodes parts later b) = rowLinks parts := by
  rw [rowCalls, build_links, rowLinks]
  have h1 : nodes.map handleOf = parts.map fun p => ⟨p.id, p.kind.outputs⟩ := by
    induction h with
    | nil => rfl
    | cons h _ ih => rw [List.map_cons, List.map_cons, ih, handleOf, h.2.1, h.2.2.2]
  rw [h1, ← List.map_tail, List.zip_map, List.map_map]
  rfl

theorem row_output (h : Nodes sr mf parts nodes) : output (rowCalls nodes parts later b) =
    if b then (parts.map Part.id).getLast? else none := by
  rw [rowCalls, build_output, last]
  cases b with
  | false => rfl
  | true =>
    simp only [if_true]
    rw [← nodes_ids h, List.getLast?_map, List.getLast?_map, Option.map_map]
    rfl

theorem dst_mem {ps : List Part} {l : Link} (h : l ∈ rowLinks ps) : l.dst ∈ ps.tail.map Part.id := by
  obtain ⟨p, hp, rfl⟩ := List.mem_map.mp h
  exact List.mem_map_of_mem (List.of_mem_zip (a := p.1) (b := p.2) hp).2

theorem filter_first {ps : List Part} {p : Part} (hn : ((p :: ps).map Part.id).Nodup) :
    (rowLinks (p :: ps)).filter (fun l => l.dst = p.id) = [] := by
  rw [List.filter_eq_nil_iff]
  intro l hl h
  rw [List.map_cons, List.nodup_cons] at hn
  have := dst_mem hl
  rw [of_decide_eq_true h] at this
  exact hn.1 this

theorem through_of {es : List (ChainEvent MixedRequest)} {total : Nat} {sig : Id → ℕ → ℕ → ℝ} {x0 : ℕ → ℕ → ℝ}
    (ps : List Part) : ∀ (p : Part) (pre : List Link) (x : ℕ → ℕ → ℝ),
    ((p :: ps).map Part.id).Nodup → (∀ l ∈ pre, l.dst ∉ ps.map Part.id) →
    (Network.arriving (pre ++ rowLinks (p :: ps)) none x0 sig p.id = x) →
    (∀ q ∈ p :: ps, q.kind.Makes sr total q.id es (Network.arriving (pre ++ rowLinks (p :: ps)) none x0 sig q.id) (sig q.id)) →
    Through sr total es (p :: ps) x (sig ((p :: ps).getLast (by simp)).id) := by
  induction ps with
  | nil =>
    intro p pre x _ _ hx hk
    have := hk p (by simp)
    rw [hx] at this
    exact this
  | cons q ps ih =>
    intro p pre x hn hpre hx hk
    have h1 := hk p (by simp)
    rw [hx] at h1
    refine ⟨_, h1, ?_⟩
    have hn' := hn
    rw [List.map_cons, List.nodup_cons] at hn'
    have hr : pre ++ rowLinks (p :: q :: ps) = (pre ++ [⟨p.id, q.id, 0, 0, p.kind.outputs⟩]) ++ rowLinks (q :: ps) := by
      rw [List.append_assoc]
      rfl
    rw [List.getLast_cons (by simp)]
    refine ih q (pre ++ [⟨p.id, q.id, 0, 0, p.kind.outputs⟩]) _ hn'.2 ?_ ?_ ?_
    · intro l hl
      rw [List.mem_append, List.mem_singleton] at hl
      rcases hl with hl | rfl
      · intro h
        exact hpre l hl (by rw [List.map_cons]; exact List.mem_cons_of_mem _ h)
      · have := hn'.2
        rw [List.map_cons, List.nodup_cons] at this
        exact this.1
    · funext c F
      rw [Network.arriving, List.filter_append, List.filter_append, filter_first hn'.2]
      have h0 : pre.filter (fun l => l.dst = q.id) = [] := by
        rw [List.filter_eq_nil_iff]
        intro l hl h
        exact hpre l hl (by rw [of_decide_eq_true h]; simp)
      rw [h0]
      simp only [List.nil_append, List.append_nil, Link.brings]
      simp [Link.brings]
    · intro r hr'
      have := hk r (by simp only [List.mem_cons] at hr' ⊢; exact .inr hr')
      rw [hr] at this
      exact this

end RowExamples
end Rawdio
