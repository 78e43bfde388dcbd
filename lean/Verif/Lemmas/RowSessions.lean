import Verif.Lemmas.RowExamples

/-! Helper lemmas about nodes in a row to which requests are made during the session. -/

namespace Rawdio
namespace RowExamples

open Network ProgramSteps

variable {P C : Type} {sr mf : Nat} {parts : List Part} {nodes : List (Dsp MixedNode)} {later : List (Nat × MixedRequest)}
  {b : Bool}

/-- Requests to nodes by number. -/
def asks (nodes : List (Dsp MixedNode)) (rs : List (Nat × MixedRequest)) : List (ApiCall MixedNode MixedRequest) :=
  (rs.filterMap fun x => nodes[x.1]?.map fun d => (handleOf d, x.2)).map fun x => .change x.1 x.2

/-- The calls of a session, in one shape. -/
def sessionCalls (nodes : List (Dsp MixedNode)) (parts : List Part) (later : List (Nat × MixedRequest)) (toOutput : Bool)
    (during : Nat → List (Nat × MixedRequest)) (i : Nat) : List (ApiCall MixedNode MixedRequest) :=
  (if i = 0 then rowCalls nodes parts later toOutput else []) ++ asks nodes (during i)

theorem session_eq (h : parts.mapM (fun p => p.kind.make sr mf p.id) = .ok nodes) (during : Nat → List (Nat × MixedRequest)) :
    session sr mf parts later b during = .ok (sessionCalls nodes parts later b during) := by
  rw [session, h, program_eq h]
  simp only [bind, Except.bind, pure, Except.pure]
  congr 1
  funext i
  rw [sessionCalls, asks, List.map_filterMap]
  simp only [Option.map_map]
  rfl

theorem asks_requests (h : Nodes sr mf parts nodes) (rs : List (Nat × MixedRequest)) :
    requests (asks nodes rs) = asked parts rs := by
  rw [asks, requests_change, asked_nodes h]

theorem session_requests (h : Nodes sr mf parts nodes) (during : Nat → List (Nat × MixedRequest)) (i : Nat) :
    requests (sessionCalls nodes parts later b during i) =
      (if i = 0 then allRequests parts later else []) ++ asked parts (during i) := by
  rw [sessionCalls, requests_append, asks_requests h]
  congr 1
  split
  · exact row_requests h
  · rfl

theorem asks_holds (hb : ∀ c ∈ (rowCalls nodes parts later b), c.Builds) (h : Nodes sr mf parts nodes) (mc : Nat)
    (cs : List (ApiCall MixedNode MixedRequest)) (hcs : ∀ c ∈ cs, ∃ rs, c ∈ asks nodes rs) :
    Allowed (fun h c => h.Typed c ∧ h.Careful mc c) (Holding.empty.afterAll (rowCalls nodes parts later b)) cs := by
  refine (changes cs _ ?_ mc).1
  intro c hc
  obtain ⟨rs, hrs⟩ := hcs c hc
  obtain ⟨x, hx, rfl⟩ := List.mem_map.mp hrs
  obtain ⟨y, _, hy⟩ := List.mem_filterMap.mp hx
  cases hd : nodes[y.1]? with
  | none => rw [hd] at hy; cases hy
  | some d =>
    rw [hd] at hy
    injection hy with hy
    rw [← hy]
    refine ⟨_, _, rfl, ⟨d.id, d.inputCount, d.outputCount⟩, ?_, rfl, rfl⟩
    rw [holding_of_builds _ hb, row_made h]
    exact List.mem_map.mpr ⟨d, List.mem_of_getElem? hd, rfl⟩

theorem session_range (during : Nat → List (Nat × MixedRequest)) (n : Nat) :
    (List.range n).flatMap (sessionCalls nodes parts later b during) =
      if n = 0 then [] else rowCalls nodes parts later b ++ (List.range n).flatMap fun i => asks nodes (during i) := by
  cases n with
  | zero => rfl
  | succ n =>
    rw [if_neg (by omega), List.range_succ_eq_map, List.flatMap_cons, List.flatMap_cons, sessionCalls, if_pos rfl,
      List.append_assoc, List.flatMap_map, List.flatMap_map]
    rfl

theorem session_allowed (mc : Nat) (h : Nodes sr mf parts nodes) (hid : (parts.map Part.id).Nodup)
    (hch : ∀ p ∈ parts, p.kind.inputs ≤ mc ∧ p.kind.outputs ≤ mc) (hl : parts.length ≤ 1022)
    (during : Nat → List (Nat × MixedRequest)) (n : Nat) :
    Allowed (fun h c => h.Typed c ∧ h.Careful mc c) Holding.empty
      ((List.range n).flatMap (sessionCalls nodes parts later b during)) := by
  rw [session_range]
  split
  · trivial
  · rw [allowed_append]
    refine ⟨row_allowed mc h hid hch hl, asks_holds build_builds h mc _ ?_⟩
    intro c hc
    obtain ⟨i, _, hi⟩ := List.mem_flatMap.mp hc
    exact ⟨_, hi⟩

theorem session_program (h : Nodes sr mf parts nodes) (hid : (parts.map Part.id).Nodup) (mc : Nat)
    (hch : ∀ p ∈ parts, p.kind.inputs ≤ mc ∧ p.kind.outputs ≤ mc) (hl : parts.length ≤ 1022)
    (during : Nat → List (Nat × MixedRequest)) : Network.Program (sessionCalls nodes parts later b during) := by
  have hask : ∀ rs, ∀ c ∈ asks nodes rs, ∃ n r, c = .change n r := by
    intro rs c hc
    obtain ⟨x, _, rfl⟩ := List.mem_map.mp hc
    exact ⟨_, _, rfl⟩
  refine ⟨?_, ?_, ?_, ?_⟩
  · intro c hc
    rw [sessionCalls, if_pos rfl, List.mem_append] at hc
    rcases hc with hc | hc
    · exact build_builds c hc
    · obtain ⟨n, r, rfl⟩ := hask _ c hc
      trivial
  · have := session_allowed (later := later) (b := b) mc h hid hch hl during 1
    simp only [List.range_one, List.flatMap_cons, List.flatMap_nil, List.append_nil] at this
    exact allowed_left _ _ this
  · rw [sessionCalls, if_pos rfl]
    exact List.mem_append_left _ build_starts
  · intro i hi c hc
    rw [sessionCalls, if_neg (by omega), List.nil_append] at hc
    obtain ⟨n, r, rfl⟩ := hask _ c hc
    trivial

theorem asks_made (rs : List (Nat × MixedRequest)) : made (asks nodes rs) = [] := made_change _ _ _

theorem asks_links (rs : List (Nat × MixedRequest)) : links (asks nodes rs) = [] := links_change _ _ _

theorem session_made (h : Nodes sr mf parts nodes) (during : Nat → List (Nat × MixedRequest)) :
    made (sessionCalls nodes parts later b during 0) = nodes := by
  rw [sessionCalls, if_pos rfl, made_append, asks_made, row_made h, List.append_nil]

theorem session_links (during : Nat → List (Nat × MixedRequest)) :
    links (sessionCalls nodes parts later b during 0) = links (rowCalls nodes parts later b) := by
  rw [sessionCalls, if_pos rfl, links_append, asks_links, List.append_nil]

theorem session_input (during : Nat → List (Nat × MixedRequest)) :
    input (sessionCalls nodes parts later b during 0) = input (rowCalls nodes parts later b) := by
  rw [sessionCalls, if_pos rfl, input, List.reverse_append, List.findSome?_append,
    List.findSome?_eq_none_iff.mpr, Option.none_or]
  · rfl
  · intro c hc
    rw [List.mem_reverse] at hc
    obtain ⟨x, _, rfl⟩ := List.mem_map.mp hc
    rfl

theorem session_output (during : Nat → List (Nat × MixedRequest)) :
    output (sessionCalls nodes parts later b during 0) = output (rowCalls nodes parts later b) := by
  rw [sessionCalls, if_pos rfl, output, List.reverse_append, List.findSome?_append,
    List.findSome?_eq_none_iff.mpr, Option.none_or]
  · rfl
  · intro c hc
    rw [List.mem_reverse] at hc
    obtain ⟨x, _, rfl⟩ := List.mem_map.mp hc
    rfl

end RowExamples
end Rawdio
