import Verif.Lemmas.RowSessions
import Verif.Props.MixedNodes

/-!
# Nodes in a row, with requests during the session (C94)
-/

namespace Rawdio
namespace RowExamples

open Processor Network Mixed

variable {N : Platform} {al : Int → Nat → Nat → Nat → Nat × Nat}

/-- C94: a program that makes nodes of any kinds, connects them in a row to the output, starts the engine, and goes on making
requests to them between process calls. From the frame on which the engine is started, what is heard is silence, passed
through the nodes one after the other, with the requests to each. -/
theorem C94_row (hz : ∀ x, N.isZero x = true → x = 0) (ho : ∀ x, N.isOne x = true → x = 1) (mf mc sr : Nat)
    (hm : 0 < mf) (hsr : 0 < sr) (hsr' : sr < 2 ^ 32) (hlen : mf * sr ≤ 2 ^ 33) (parts : List Part) (hne : parts ≠ [])
    (hu : ∀ p ∈ parts, p.kind.Usable) (hid : (parts.map Part.id).Nodup)
    (hch : ∀ p ∈ parts, p.kind.inputs ≤ mc ∧ p.kind.outputs ≤ mc) (hl : parts.length ≤ 1022)
    (later : List (Nat × MixedRequest)) (hr : ∀ x ∈ allRequests parts later, x.2.Proper)
    (during : Nat → List (Nat × MixedRequest)) (hr' : ∀ i, ∀ x ∈ during i, x.2.Proper)
    (prog : Nat → List (ApiCall MixedNode MixedRequest)) (hprog : session sr mf parts later true during = .ok prog)
    (waiting ks : List (Call ℝ MixedNode MixedRequest)) (hv : ∀ k ∈ waiting ++ ks, k.Valid)
    (hdel : Delivered prog waiting ks) (E : Processor ℝ MixedNode)
    (hE : calls (MixedNode.ops N al) (new sr mc mf) (waiting ++ ks) = .ok E) :
    ∃ es y, ChainHistory mf sr (fun i => (if i = 0 then allRequests parts later else []) ++ asked parts (during i)) ks es ∧
      Through sr (framesIn ks) es parts (fun _ _ => 0) y ∧
      ∀ i k E1 o E2, (waiting ++ ks)[i]? = some k →
        calls (MixedNode.ops N al) (new sr mc mf) ((waiting ++ ks).take i) = .ok E1 →
        E1.process (MixedNode.ops N al) k.env k.commands k.input k.output = .ok (o, E2) →
        ∀ c f F, c < k.output.channelCount → f < k.output.frameCount →
          F = framesIn (ks.take (i - waiting.length)) + f →
          o.sample? c f = some (if i < waiting.length ∨ mc ≤ c then 0 else y c F) := by
  obtain ⟨nodes, n1, n2⟩ := nodes_ok (sr := sr) hm parts hu
  rw [session_eq n1] at hprog
  injection hprog with hprog
  subst hprog
  obtain ⟨es, sig, h1, h2, h3⟩ := C87_mixed (al := al) hz ho mf mc sr hm hsr hsr' hlen _
      (session_program n2 hid mc hch hl during) (by
      rw [session_made n2, session_links, session_input]
      have := row_plain (later := later) (b := true) n2 hid
      rwa [row_made n2] at this) (parts.map fun p => (p.id, p.kind)) (by
      intro q hq
      obtain ⟨p, hp, rfl⟩ := List.mem_map.mp hq
      exact hu p hp) (by rw [session_made n2]; exact row_kinds n2) (by
      intro i x hx
      rw [session_requests n2, List.mem_append] at hx
      rcases hx with hx | hx
      · split at hx
        · exact hr x hx
        · cases hx
      · obtain ⟨y, hy, hy'⟩ := List.mem_filterMap.mp hx
        obtain ⟨p, _, rfl⟩ := Option.map_eq_some_iff.mp hy'
        exact hr' i y hy) waiting ks hv hdel E hE
  simp only [session_requests n2] at h1
  rw [session_links, session_input] at h2
  rw [session_output] at h3
  simp only [row_links n2, row_output n2] at h2 h3
  obtain ⟨p, ps, rfl⟩ := List.exists_cons_of_ne_nil hne
  refine ⟨es, sig ((p :: ps).getLast (by simp)).id, h1, ?_, ?_⟩
  · have hin : input (rowCalls nodes (p :: ps) later true) = none := ProgramSteps.build_input
    rw [hin] at h2
    refine through_of ps p [] _ hid (by simp) ?_ fun q hq => h2 (q.id, q.kind) (List.mem_map.mpr ⟨q, hq, rfl⟩)
    · funext c F
      rw [List.nil_append, Network.arriving, filter_first hid]
      simp
  · intro i k E1 o E2 hik e1 e2 c f F hc hf hF
    rw [h3 i k E1 o E2 hik e1 e2 c f hc hf, ← hF, heard]
    have hlast : ((p :: ps).map Part.id).getLast? = some ((p :: ps).getLast (by simp)).id := by
      rw [List.getLast?_map, List.getLast?_eq_getLast_of_ne_nil (by simp)]
      rfl
    simp only [if_true]
    rw [hlast]
    by_cases hi : i < waiting.length
    · simp [hi]
    · by_cases hcm : c < mc
      · have : ¬ mc ≤ c := by omega
        simp [hi, hcm, this]
      · have : mc ≤ c := by omega
        simp [hi, hcm, this]

/-- C94: all process calls of such a session succeed, if the requests are for what the nodes have, and no oscillator comes
to a whole number of cycles at a frame. -/
theorem C94_runs (hz : ∀ x, N.isZero x = true → x = 0) (ho : ∀ x, N.isOne x = true → x = 1) (mf mc sr : Nat)
    (hm : 0 < mf) (hsr : 0 < sr) (hsr' : sr < 2 ^ 32) (hlen : mf * sr ≤ 2 ^ 33) (parts : List Part)
    (hu : ∀ p ∈ parts, p.kind.Usable ∧ p.kind.Renders sr) (hid : (parts.map Part.id).Nodup)
    (hch : ∀ p ∈ parts, p.kind.inputs ≤ mc ∧ p.kind.outputs ≤ mc) (hl : parts.length ≤ 1022)
    (later : List (Nat × MixedRequest)) (hr : ∀ p ∈ parts, ∀ r, (p.id, r) ∈ allRequests parts later → p.kind.Allows r)
    (during : Nat → List (Nat × MixedRequest))
    (hr' : ∀ i, ∀ p ∈ parts, ∀ r, (p.id, r) ∈ asked parts (during i) → p.kind.Allows r) (toOutput : Bool) :
    ∃ prog, session sr mf parts later toOutput during = .ok prog ∧
      ∀ waiting ks : List (Call ℝ MixedNode MixedRequest), (∀ k ∈ waiting ++ ks, k.Valid) → Delivered prog waiting ks →
        ∃ E, calls (MixedNode.ops N al) (new sr mc mf) (waiting ++ ks) = .ok E := by
  obtain ⟨nodes, n1, n2⟩ := nodes_ok (sr := sr) hm parts fun p hp => (hu p hp).1
  refine ⟨_, session_eq n1 during, ?_⟩
  intro waiting ks hv hdel
  refine C87_runs hz ho mf mc sr hm hsr hsr' hlen _ (session_program n2 hid mc hch hl during)
    (parts.map fun p => (p.id, p.kind)) ?_ ?_ ?_ (session_allowed mc n2 hid hch hl during) waiting ks hv hdel
  · intro q hq
    obtain ⟨p, hp, rfl⟩ := List.mem_map.mp hq
    exact hu p hp
  · rw [session_made n2]
    exact row_kinds n2
  · intro i x hx k hk
    obtain ⟨p, hp, he⟩ := List.mem_map.mp hk
    injection he with h1 h2
    subst h2
    rw [session_requests n2, List.mem_append] at hx
    rcases hx with hx | hx
    · split at hx
      · exact hr p hp x.2 (by rw [h1]; exact hx)
      · cases hx
    · exact hr' i p hp x.2 (by rw [h1]; exact hx)

/-! ### Examples -/

/-- A session of three calls, for examples: nothing arrives in the first, and requests arrive in the last. -/
theorem threeCalls (prog : Nat → List (ApiCall MixedNode MixedRequest)) :
    (∀ k ∈ [mixedCall []] ++ [mixedCall (prog 0), mixedCall (prog 1)], k.Valid) ∧
      Delivered prog [mixedCall []] [mixedCall (prog 0), mixedCall (prog 1)] := by
  constructor
  · intro k hk
    simp only [List.cons_append, List.nil_append, List.mem_cons, List.not_mem_nil, or_false] at hk
    rcases hk with rfl | rfl | rfl <;> exact mixedCall_valid _
  · refine ⟨?_, ⟨_, rfl⟩, ?_, ?_⟩
    · simp [history, mixedCall]
    · intro k hk
      cases hk
      simp [history, mixedCall, Function.comp_def]
    · intro i k hi hk
      match i with
      | 1 => cases hk; simp [mixedCall, Function.comp_def]
      | i + 2 => cases hk

/-- A gain and an ADSR envelope in a row; while they play the gain is set and a note starts. -/
example : ∃ prog E, session 44100 16 [⟨1, .effect (.gain 2), [set "gain" 0 0]⟩, ⟨2, .adsr 2, []⟩] [] true
      (fun i => if i = 1 then [(0, set "gain" (1 / 2) 0), (1, .adsr ⟨0, 0, .noteOn⟩)] else []) = .ok prog ∧
    (∀ k ∈ [mixedCall []] ++ [mixedCall (prog 0), mixedCall (prog 1)], k.Valid) ∧
    Delivered prog [mixedCall []] [mixedCall (prog 0), mixedCall (prog 1)] ∧
    calls (MixedNode.ops Fx.plain fun _ _ _ _ => (0, 0)) (new 44100 2 16)
      ([mixedCall []] ++ [mixedCall (prog 0), mixedCall (prog 1)]) = .ok E := by
  obtain ⟨prog, h1, h2⟩ := C94_runs (N := Fx.plain) (al := fun _ _ _ _ => (0, 0)) (by simp [Fx.plain])
    (by simp [Fx.plain]) 16 2 44100 (by norm_num) (by norm_num) (by norm_num) (by norm_num)
    [⟨1, .effect (.gain 2), [set "gain" 0 0]⟩, ⟨2, .adsr 2, []⟩] (by
      intro p hp
      simp only [List.mem_cons, List.not_mem_nil, or_false] at hp
      rcases hp with rfl | rfl <;> exact ⟨trivial, trivial⟩) (by simp) (by
      intro p hp
      simp only [List.mem_cons, List.not_mem_nil, or_false] at hp
      rcases hp with rfl | rfl <;> exact ⟨le_refl 2, le_refl 2⟩) (by simp) [] (by
      intro p hp r hr
      simp only [List.mem_cons, List.not_mem_nil, or_false] at hp
      rcases hp with rfl | rfl <;> simp [allRequests, asked] at hr
      subst hr
      simp [NodeKind.Allows, FxKind.names, set, ParameterRequest.name])
    (fun i => if i = 1 then [(0, set "gain" (1 / 2) 0), (1, .adsr ⟨0, 0, .noteOn⟩)] else []) (by
      intro i p hp r hr
      split at hr
      · simp only [List.mem_cons, List.not_mem_nil, or_false] at hp
        rcases hp with rfl | rfl <;> simp [asked] at hr <;> subst hr
        · simp [NodeKind.Allows, FxKind.names, set, ParameterRequest.name]
        · trivial
      · simp [asked] at hr) true
  obtain ⟨v, d⟩ := threeCalls prog
  obtain ⟨E, hE⟩ := h2 _ _ v d
  exact ⟨prog, E, h1, v, d, hE⟩

end RowExamples
end Rawdio
