import Verif.Lemmas.MixedLevels
import Verif.Lemmas.ProgramSteps
import Verif.Props.Effects
import Verif.Props.Network

/-!
# Nodes of different kinds in one engine (C87)
-/

namespace Rawdio
namespace Mixed

open Processor Network

variable {N : Platform} {al : Int → Nat → Nat → Nat → Nat × Nat}

/-- C87: effects, mixers, ADSR envelopes and samplers, connected in any way: every node has one signal for the whole
session. What comes out of each of them is what a node of its kind makes of the sum of what its connections bring, with
the parameters, levels and events that were requested, wherever blocks and process calls end. -/
theorem C87_mixed (hz : ∀ x, N.isZero x = true → x = 0) (ho : ∀ x, N.isOne x = true → x = 1) (mf mc sr : Nat)
    (hm : 0 < mf) (hsr : 0 < sr) (hsr' : sr < 2 ^ 32) (hlen : mf * sr ≤ 2 ^ 33)
    (program : Nat → List (ApiCall MixedNode MixedRequest)) (hP : Program program)
    (hp : Plain (made (program 0)) (links (program 0)) (input (program 0))) (kinds : List (Id × NodeKind))
    (hk : ∀ q ∈ kinds, q.2.Usable) (hmade : NodeKind.Made sr mf kinds (made (program 0)))
    (hr : ∀ i, ∀ x ∈ requests (program i), x.2.Proper)
    (waiting ks : List (Call ℝ MixedNode MixedRequest)) (hv : ∀ k ∈ waiting ++ ks, k.Valid)
    (hd : Delivered program waiting ks) (E : Processor ℝ MixedNode)
    (hE : calls (MixedNode.ops N al) (new sr mc mf) (waiting ++ ks) = .ok E) :
    ∃ es sig, ChainHistory mf sr (fun i => requests (program i)) ks es ∧
      (∀ q ∈ kinds, q.2.Makes sr (framesIn ks) q.1 es
        (arriving (links (program 0)) (input (program 0)) (sessionInput true mc ks) sig q.1) (sig q.1)) ∧
      ∀ i k E1 o E2, (waiting ++ ks)[i]? = some k →
        calls (MixedNode.ops N al) (new sr mc mf) ((waiting ++ ks).take i) = .ok E1 →
        E1.process (MixedNode.ops N al) k.env k.commands k.input k.output = .ok (o, E2) →
        ∀ c f, c < k.output.channelCount → f < k.output.frameCount →
          o.sample? c f = some (if i < waiting.length then 0
            else heard (output (program 0)) mc sig c (framesIn (ks.take (i - waiting.length)) + f)) := by
  obtain ⟨es, sig, h1, h2, h3⟩ := C86_network (MixedNode.ops N al) mf mc sr hm program hP hp waiting ks hv hd E hE
  refine ⟨es, sig, h1, ?_, h3⟩
  intro q hq
  have ht := Chain.history_total h1
  have hes : ∀ e ∈ es, match e with | .change _ r => r.Proper | .block _ n => 0 < n ∧ n ≤ mf := by
    intro e he
    have := Sampler.history_events hm h1 e he
    cases e with
    | change i c =>
      obtain ⟨j, hj⟩ := this
      exact hr _ _ hj
    | block t n => exact this
  obtain ⟨i, hi, rfl⟩ := List.mem_iff_getElem.mp hq
  have hlen' := hmade.length_eq
  have hmk := (List.forall₂_iff_get.mp hmade).2 i hi (by omega)
  simp only [List.get_eq_getElem] at hmk
  have hid : ((made (program 0))[i]'(by omega)).id = kinds[i].1 := by
    obtain ⟨d, m1, m2, _⟩ := NodeKind.make_ok (sr := sr) hm kinds[i].1 kinds[i].2 (hk _ hq)
    rw [m1] at hmk
    injection hmk with hmk
    rw [← hmk, m2]
  obtain ⟨d', h⟩ := h2 _ (List.getElem_mem (by omega : i < (made (program 0)).length))
  rw [hid] at h
  have := NodeKind.node_makes hz ho hsr hsr' hm hlen _ _ (hk _ hq) _ hmk es hes h
  rw [ht] at this
  exact this

/-- C87: a parameter of an effect that is set at time zero has the value from the first frame of the next call on,
whatever is requested of other nodes of any kind. -/
theorem C87_set_now {P : Type} (k : FxKind) (i : Id) (name : String) (mf sr : Nat) (hsr : 0 < sr) (hle : sr ≤ 2 ^ 30)
    (changes : Nat → List (Id × MixedRequest)) (n : Nat) (v : ℝ)
    (hown : ∀ j, (changes j).filterMap (fun x => if x.1 = i then x.2.parameter?.filter (fun r => r.name = name) else none) =
      if j = n then [ParameterRequest.change name ⟨v, Timestamp.zero, .immediate⟩] else [])
    (ks : List (Call ℝ P MixedRequest)) (es : List (ChainEvent MixedRequest))
    (h : ChainHistory mf sr changes ks es) (F : Nat) (hF : F < framesIn ks) :
    k.track sr (es.filterMap (ChainEvent.seen i MixedRequest.parameter?)) i name F =
      if framesIn (ks.take n) ≤ F ∧ n < ks.length then v else k.default name := by
  have hs := history_seen (P' := FxNode) i MixedRequest.parameter? h
  rw [Fx.C83_set_now k i name mf sr hsr hle _ n v ?_ _ _ hs F (by rw [framesIn_bare]; exact hF), ← List.map_take,
    framesIn_bare, List.length_map]
  intro j
  rw [seenBy, List.filter_filterMap]
  have : ((changes j).filterMap fun x => if x.1 = i then x.2.parameter?.filter (fun r => r.name = name) else none).map
      (fun r => (i, r)) = if j = n then [(i, ParameterRequest.change name ⟨v, Timestamp.zero, .immediate⟩)] else [] := by
    rw [hown j]
    split <;> rfl
  rw [← this, List.map_filterMap]
  congr 1
  funext x
  by_cases hx : x.1 = i
  · rw [if_pos hx, if_pos hx]
    cases x.2.parameter? with
    | none => rfl
    | some r => by_cases hr : r.name = name <;> simp [hr, Option.filter]
  · rw [if_neg hx, if_neg hx]
    rfl

/-- C87: a parameter of an effect of which nothing is requested has the value that the documentation gives, whatever is
requested of other nodes of any kind. -/
theorem C87_untouched {P : Type} (k : FxKind) (i : Id) (name : String) (mf sr : Nat)
    (changes : Nat → List (Id × MixedRequest))
    (hno : ∀ j, ∀ r, (i, MixedRequest.parameter r) ∈ changes j → r.name ≠ name)
    (ks : List (Call ℝ P MixedRequest)) (es : List (ChainEvent MixedRequest))
    (h : ChainHistory mf sr changes ks es) (F : Nat) (hF : F < framesIn ks) :
    k.track sr (es.filterMap (ChainEvent.seen i MixedRequest.parameter?)) i name F = k.default name := by
  refine Fx.C83_untouched k i name mf sr _ ?_ _ _ (history_seen (P' := FxNode) i MixedRequest.parameter? h) F
    (by rw [framesIn_bare]; exact hF)
  rintro j x hx ⟨_, hn⟩
  obtain ⟨y, hy, hyx⟩ := List.mem_filterMap.mp hx
  by_cases hi : y.1 = i
  · rw [if_pos hi] at hyx
    obtain ⟨q, r⟩ := y
    cases r <;> simp only [MixedRequest.parameter?, Option.map_none, Option.map_some, reduceCtorEq] at hyx
    subst hi
    injection hyx with hyx
    subst hyx
    exact hno j _ hy hn
  · rw [if_neg hi] at hyx
    cases hyx

/-- C87: during a process call a mixer has the levels that it was made with and that were set before the call, in the
order in which they were set, from its first frame to its last. -/
theorem C87_levels {P : Type} (i : Id) (mf sr : Nat) (changes : Nat → List (Id × MixedRequest))
    (ks : List (Call ℝ P MixedRequest)) (es : List (ChainEvent MixedRequest)) (h : ChainHistory mf sr changes ks es)
    (level : Nat → Nat → ℝ) (j F : Nat) (hj : framesIn (ks.take j) ≤ F) (hF : F < framesIn (ks.take (j + 1))) :
    (levelTrack level (es.filterMap (ChainEvent.seen i MixedRequest.level?))).getD F level =
      ((List.range (j + 1)).flatMap fun l => (changes l).filterMap fun x =>
        if x.1 = i then x.2.level? else none).foldl (fun L r => setLevelOf L r.input r.output r.level.linear) level := by
  rw [(levels_history i h level).2.2 j F hj hF, levelsSet]
  congr 2
  funext l
  rw [seenBy, List.map_filterMap]
  congr 1
  funext x
  by_cases hx : x.1 = i
  · rw [if_pos hx, if_pos hx]
    cases x.2.level? <;> rfl
  · rw [if_neg hx, if_neg hx]
    rfl

/-- C87: all process calls of such a session succeed, if the program is careful (C79) and requests only what the nodes
have, and no oscillator comes to a whole number of cycles at a frame. -/
theorem C87_runs (hz : ∀ x, N.isZero x = true → x = 0) (ho : ∀ x, N.isOne x = true → x = 1) (mf mc sr : Nat)
    (hm : 0 < mf) (hsr : 0 < sr) (hsr' : sr < 2 ^ 32) (hlen : mf * sr ≤ 2 ^ 33)
    (program : Nat → List (ApiCall MixedNode MixedRequest)) (hP : Program program) (kinds : List (Id × NodeKind))
    (hk : ∀ q ∈ kinds, q.2.Usable ∧ q.2.Renders sr) (hmade : NodeKind.Made sr mf kinds (made (program 0)))
    (hr : ∀ i, ∀ x ∈ requests (program i), ∀ k, (x.1, k) ∈ kinds → k.Allows x.2)
    (hc : ∀ n, Allowed (fun h c => h.Typed c ∧ h.Careful mc c) Holding.empty ((List.range n).flatMap program))
    (waiting ks : List (Call ℝ MixedNode MixedRequest)) (hv : ∀ k ∈ waiting ++ ks, k.Valid)
    (hd : Delivered program waiting ks) :
    ∃ E, calls (MixedNode.ops N al) (new sr mc mf) (waiting ++ ks) = .ok E := by
  refine C86_runs _ mf mc sr hm _ _ (NodeKind.mixed_healthy (al := al) hz ho hsr hlen kinds) program hP ?_ hc waiting ks
    hv hd
  intro i c hci
  cases c with
  | create id inputs outputs s =>
    have hi : i = 0 := by
      by_contra h0
      exact hP.requests i (by omega) _ hci
    subst hi
    have hmem : (⟨id, inputs, outputs, s⟩ : Dsp MixedNode) ∈ made (program 0) := List.mem_filterMap.mpr ⟨_, hci, rfl⟩
    obtain ⟨j, hj, hjd⟩ := List.mem_iff_getElem.mp hmem
    have hl := hmade.length_eq
    have hmk := (List.forall₂_iff_get.mp hmade).2 j (by omega) hj
    simp only [List.get_eq_getElem, hjd] at hmk
    have hq := List.getElem_mem (l := kinds) (n := j) (by omega)
    obtain ⟨hu, hre⟩ := hk _ hq
    obtain ⟨d, m1, m2, _⟩ := NodeKind.make_ok (sr := sr) hm kinds[j].1 kinds[j].2 hu
    have hid : id = kinds[j].1 := by
      rw [m1] at hmk
      injection hmk with hmk
      rw [hmk] at m2
      exact m2
    refine ⟨kinds[j].2, ?_, NodeKind.new_sound hm hsr hsr' hu hre hmk⟩
    rw [hid]
    exact hq
  | change node r =>
    intro k hk'
    exact hr i (node.id, r) (List.mem_filterMap.mpr ⟨_, hci, rfl⟩) k hk'
  | _ => trivial

/-! ### Examples -/

/-- A process call of eight frames in which all calls of the program arrive, or none. -/
def mixedCall (as : List (ApiCall MixedNode MixedRequest)) : Call ℝ MixedNode MixedRequest :=
  ⟨as.map fun c => (c.command, .plain), .owned (List.replicate 16 0) 2 8 44100, .owned (List.replicate 16 0) 2 8 44100,
    fun _ => Env.plain⟩

theorem mixedCall_valid (as : List (ApiCall MixedNode MixedRequest)) : (mixedCall as).Valid := by
  refine ⟨?_, ?_, trivial, le_refl _, ?_⟩
  · simp [mixedCall, Buf.WF]
  · simp [mixedCall, Buf.WF]
  · intro x hx
    obtain ⟨y, _, rfl⟩ := List.mem_map.mp hx
    exact command_api y

theorem mixedCall_delivered (calls0 : List (ApiCall MixedNode MixedRequest)) :
    Delivered (fun i => if i = 0 then calls0 else []) [mixedCall []] [mixedCall calls0, mixedCall []] := by
  refine ⟨?_, ⟨_, rfl⟩, ?_, ?_⟩
  · simp [history, mixedCall]
  · intro k hk
    cases hk
    simp [history, mixedCall, Function.comp_def]
  · intro i k hi hk
    match i with
    | 1 => cases hk; rfl
    | i + 2 => cases hk

/-- The nodes of a program for examples, with the requests to them: an ADSR envelope of one channel and a splitter. -/
noncomputable def noteParts (m : Mixer) : List (Dsp MixedNode × List MixedRequest) :=
  [(⟨1, 1, 1, .adsr ⟨1, AdsrProcessor.new 44100 16⟩⟩, [.adsr ⟨0, 0, .noteOn⟩]),
    (⟨2, 1, 2, .mixer ⟨1, 2, m⟩⟩, [.level ⟨0, 1, ⟨1 / 2⟩⟩])]

/-- The program. -/
noncomputable def noteProgram (m : Mixer) : List (ApiCall MixedNode MixedRequest) :=
  ProgramSteps.build (noteParts m) [] [(⟨1, 1⟩, ⟨2, 2⟩)] (some ⟨2, 2⟩)

/-- An ADSR envelope and a splitter, with a level and a note, in a session of three calls. -/
example : ∃ m E, Program (fun i => if i = 0 then noteProgram m else []) ∧
    Plain (made (noteProgram m)) (links (noteProgram m)) (input (noteProgram m)) ∧
    NodeKind.Made 44100 16 [(1, .adsr 1), (2, .splitter)] (made (noteProgram m)) ∧
    (∀ x ∈ requests (noteProgram m), x.2.Proper) ∧
    (∀ k ∈ [mixedCall []] ++ [mixedCall (noteProgram m), mixedCall []], k.Valid) ∧
    Delivered (fun i => if i = 0 then noteProgram m else []) [mixedCall []] [mixedCall (noteProgram m), mixedCall []] ∧
    calls (MixedNode.ops Fx.plain fun _ _ _ _ => (0, 0)) (new 44100 2 16)
      ([mixedCall []] ++ [mixedCall (noteProgram m), mixedCall []]) = .ok E := by
  obtain ⟨m, hmx, _⟩ := Mixer.splitter_ok
  have hval : ∀ (as : List (ApiCall MixedNode MixedRequest)), ∀ k ∈ [mixedCall []] ++ [mixedCall as, mixedCall []], k.Valid := by
    intro as k hk
    simp only [List.cons_append, List.nil_append, List.mem_cons, List.not_mem_nil, or_false] at hk
    rcases hk with rfl | rfl | rfl <;> exact mixedCall_valid _
  have hmade : NodeKind.Made 44100 16 [(1, .adsr 1), (2, .splitter)] (made (noteProgram m)) := by
    rw [noteProgram, ProgramSteps.build_made]
    refine .cons rfl (.cons ?_ .nil)
    simp only [NodeKind.make, hmx, bind, Except.bind]
    rfl
  have hall : Allowed (fun h c => h.Typed c ∧ h.Careful 2 c) Holding.empty (noteProgram m) :=
    ProgramSteps.build_allowed 2 (by simp [noteParts]) (by simp [noteParts]) (by simp [noteParts]) (by simp)
      (by simp [ProgramSteps.handleOf, noteParts]) (by simp [ProgramSteps.handleOf, noteParts]) id (by simp) (by simp)
  have hreq : requests (noteProgram m) = [(1, .adsr ⟨0, 0, .noteOn⟩), (2, .level ⟨0, 1, ⟨1 / 2⟩⟩)] := by
    rw [noteProgram, ProgramSteps.build_requests]
    rfl
  have hP := ProgramSteps.program ProgramSteps.build_builds (ProgramSteps.allowed_left _ _ hall) ProgramSteps.build_starts
  obtain ⟨E, hE⟩ := C87_runs (N := Fx.plain) (al := fun _ _ _ _ => (0, 0)) (by simp [Fx.plain]) (by simp [Fx.plain]) 16 2 44100
    (by norm_num) (by norm_num) (by norm_num) (by norm_num) _ hP [(1, .adsr 1), (2, .splitter)] (by
        intro q hq
        simp only [List.mem_cons, List.not_mem_nil, or_false] at hq
        rcases hq with rfl | rfl <;> exact ⟨trivial, trivial⟩) hmade (by
        intro i x hx k hk
        split at hx
        · rw [← noteProgram, hreq] at hx
          simp only [List.mem_cons, List.not_mem_nil, or_false] at hx hk
          rcases hx with rfl | rfl <;> rcases hk with hk | hk <;> simp at hk <;> subst hk
          · trivial
          · exact ⟨Nat.one_pos, by norm_num⟩
        · cases hx) (by
        intro n
        rw [ProgramSteps.at_first]
        split
        · trivial
        · exact hall) _ _ (hval _) (mixedCall_delivered _)
  refine ⟨m, E, hP, ?_, hmade, ?_, hval _, mixedCall_delivered _, hE⟩
  · apply ProgramSteps.build_plain
    simp [noteParts]
  · rw [hreq]
    simp [MixedRequest.Proper]

/-- The history of a call of eight frames, for examples. -/
theorem mixedSession (cs : List (Id × MixedRequest)) : ChainHistory 16 44100 (fun j => if j = 0 then cs else []) [mixedCall []]
    ([] ++ cs.map (fun x => .change x.1 x.2) ++
      [(Timestamp.incrementedBySamples 0 0 44100, 8)].map fun b => .block b.1 b.2) :=
  .snoc (ks := []) (mixedCall []) [(Timestamp.incrementedBySamples 0 0 44100, 8)] .nil ⟨0, [(0, 8)], by
    intro u; simp [framesIn], ⟨rfl, by norm_num, by norm_num, by simp [Buf.frameCount, mixedCall], rfl⟩, rfl⟩

/-- A gain is set, another and an envelope as well. -/
example : ∀ F < 8, (FxKind.gain 1).track 44100 (List.filterMap (ChainEvent.seen 1 MixedRequest.parameter?)
    ([] ++ [((2 : Id), MixedRequest.adsr ⟨0, 0, .noteOn⟩), (3, .parameter (.cancel "gain" none)),
      (1, .parameter (.change "gain" ⟨2, Timestamp.zero, .immediate⟩))].map (fun x => ChainEvent.change x.1 x.2) ++
      [(Timestamp.incrementedBySamples 0 0 44100, 8)].map fun b => ChainEvent.block b.1 b.2)) 1 "gain" F = 2 := by
  intro F hF
  rw [C87_set_now (.gain 1) 1 "gain" 16 44100 (by norm_num) (by norm_num) _ 0 2 (by
    intro j
    by_cases hj : j = 0
    · simp [hj, MixedRequest.parameter?, ParameterRequest.name, Option.filter]
    · simp [hj]) _ _ (mixedSession _) F (by simpa [framesIn, mixedCall, Buf.frameCount] using hF)]
  exact if_pos ⟨by simp [framesIn], by simp⟩

/-- Another gain is set, and an envelope. -/
example : ∀ F < 8, (FxKind.gain 1).track 44100 (List.filterMap (ChainEvent.seen 1 MixedRequest.parameter?)
    ([] ++ [((1 : Id), MixedRequest.adsr ⟨0, 0, .noteOn⟩), (3, .parameter (.change "gain" ⟨2, Timestamp.zero, .immediate⟩))].map
      (fun x => ChainEvent.change x.1 x.2) ++
      [(Timestamp.incrementedBySamples 0 0 44100, 8)].map fun b => ChainEvent.block b.1 b.2)) 1 "gain" F = 1 := by
  intro F hF
  rw [C87_untouched (.gain 1) 1 "gain" 16 44100 _ (by
    intro j r hr
    split at hr <;> simp at hr) _ _ (mixedSession _) F (by simpa [framesIn, mixedCall, Buf.frameCount] using hF)]
  rfl

/-- A level is set twice. -/
example : ∀ F < 8, (levelTrack NodeKind.splitter.levels (List.filterMap (ChainEvent.seen 1 MixedRequest.level?)
    ([] ++ [((1 : Id), MixedRequest.level ⟨0, 1, ⟨1 / 2⟩⟩), (2, .level ⟨0, 1, ⟨1 / 8⟩⟩), (1, .level ⟨0, 1, ⟨1 / 4⟩⟩)].map
      (fun x => ChainEvent.change x.1 x.2) ++
      [(Timestamp.incrementedBySamples 0 0 44100, 8)].map fun b => ChainEvent.block b.1 b.2))).getD F
      NodeKind.splitter.levels 0 1 = 1 / 4 := by
  intro F hF
  rw [C87_levels 1 16 44100 _ _ _ (mixedSession _) _ 0 F (by simp [framesIn])
    (by simpa [framesIn, mixedCall, Buf.frameCount] using hF)]
  simp [MixedRequest.level?, setLevelOf]

end Mixed
end Rawdio
