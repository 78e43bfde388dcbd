import Verif.Lemmas.NetworkRun
import Verif.Lemmas.EffectRun
import Verif.Lemmas.SamplerNode
import Verif.Props.Client
import Mathlib.Order.WellFoundedSet

/-!
# Nodes connected in any way (C86)
-/

namespace Rawdio
namespace Network

open Processor

variable {S P C : Type}

/-- C86: whatever the nodes do, however they are connected, whatever is requested of them and when, and however the
calls of the program and the frames are divided over process calls and blocks: every node has one signal for the whole
session, which is what the node makes of the sum of what its connections bring, and the engine plays the signal of the
node that is connected to the output. It is silent before it is started. -/
theorem C86_network [AddZeroClass S] (ops : NodeOps S P C) (mf mc sr : Nat) (hm : 0 < mf)
    (program : Nat → List (ApiCall P C)) (hP : Program program)
    (hp : Plain (made (program 0)) (links (program 0)) (input (program 0))) (waiting ks : List (Call S P C))
    (hk : ∀ k ∈ waiting ++ ks, k.Valid) (hd : Delivered program waiting ks) (E : Processor S P)
    (hE : calls ops (new sr mc mf) (waiting ++ ks) = .ok E) :
    ∃ es sig, ChainHistory mf sr (fun i => requests (program i)) ks es ∧
      Plays ops sr (made (program 0)) (links (program 0)) (input (program 0)) es (sessionInput true mc ks) sig ∧
      ∀ i k E1 o E2, (waiting ++ ks)[i]? = some k → calls ops (new sr mc mf) ((waiting ++ ks).take i) = .ok E1 →
        E1.process ops k.env k.commands k.input k.output = .ok (o, E2) →
        ∀ c f, c < k.output.channelCount → f < k.output.frameCount →
          o.sample? c f = some (if i < waiting.length then 0
            else heard (output (program 0)) mc sig c (framesIn (ks.take (i - waiting.length)) + f)) := by
  obtain ⟨E0, h1, h2⟩ := (calls_append _ _ _ _).mp hE
  obtain ⟨V0, v1, v2, v3, v4, v5⟩ := session_waiting hm waiting E0 (fun k h => hk k (by simp [h]))
    (fun c hc he => hd.notStarted (he ▸ hc)) h1
  obtain ⟨rest', hpart⟩ := hd.part
  obtain ⟨before, rest, hbr, hbe, hre⟩ := List.append_eq_map_iff.mp hpart
  rw [← hbe] at v3
  obtain ⟨V, es, Y, _, _, y3, _, y5, y6⟩ := session_network hm hP hp hbr v2 v1 v3 ks E (fun k h => hk k (by simp [h]))
    (by
      intro i k hik
      by_cases h0 : i = 0
      · subst h0
        have := hd.first k hik
        rw [hbr, List.map_append, ← hbe] at this
        simpa using List.append_cancel_left this
      · simp only [if_neg h0]
        exact hd.later i k (by omega) hik) h2
  refine ⟨es, Y, y3, ?_, ?_⟩
  · intro d hd'
    obtain ⟨e, _, e2, _⟩ := y5 d hd'
    exact ⟨e, e2⟩
  · intro i k E1 o E2 hik h3 h4 c f hc hf
    by_cases hi : i < waiting.length
    · rw [if_pos hi]
      rw [List.getElem?_append_left hi] at hik
      rw [List.take_append_of_le_length hi.le] at h3
      exact v5 i k E1 o E2 hik h3 h4 c f hc hf
    · rw [if_neg hi]
      rw [List.getElem?_append_right (by omega)] at hik
      rw [List.take_append, List.take_of_length_le (by omega)] at h3
      obtain ⟨E0', g1, g2⟩ := (calls_append _ _ _ _).mp h3
      obtain rfl : E0 = E0' := by rw [h1] at g1; injection g1
      rw [y6 _ k E1 o E2 hik g2 h4 c f hc hf]
      unfold heardFrom heard
      cases ho : output (program 0) with
      | none => simp
      | some n => simp [output_held _ hP.builds hP.typed n ho]

/-- C86: if no signal path leads back to where it started, these equations leave no choice: the signals of the nodes
are determined by the program, the input and the times of the blocks. -/
theorem C86_determined [Zero S] [Add S] (ops : NodeOps S P C) (sr : Nat) (nodes : List (Dsp P)) (links : List Link)
    (input : Option Id) (es : List (ChainEvent C)) (x : Nat → Nat → S) (ha : Acyclic links)
    (hl : ∀ l ∈ links, l.src ∈ nodes.map Dsp.id) (sig sig' : Signals S)
    (h : Plays ops sr nodes links input es x sig) (h' : Plays ops sr nodes links input es x sig') :
    ∀ d ∈ nodes, sig d.id = sig' d.id := by
  haveI : IsStrictOrder Id (Relation.TransGen fun a b => ∃ l ∈ links, l.src = a ∧ l.dst = b) :=
    { irrefl := ha, trans := fun _ _ _ => Relation.TransGen.trans }
  have hw : ({i | i ∈ nodes.map Dsp.id} : Set Id).WellFoundedOn
      (Relation.TransGen fun a b => ∃ l ∈ links, l.src = a ∧ l.dst = b) :=
    Set.Finite.wellFoundedOn (List.finite_toSet _)
  have key : ∀ i ∈ ({i | i ∈ nodes.map Dsp.id} : Set Id), sig i = sig' i := by
    intro i hi
    refine hw.induction (P := fun i => sig i = sig' i) hi ?_
    intro n hn ih
    obtain ⟨d, hd, rfl⟩ := List.mem_map.mp hn
    obtain ⟨e, he⟩ := h d hd
    obtain ⟨e', he'⟩ := h' d hd
    have : arriving links input x sig d.id = arriving links input x sig' d.id := by
      funext c F
      unfold arriving
      congr 1
      apply List.map_congr_left
      intro l hl'
      obtain ⟨l1, l2⟩ := List.mem_filter.mp hl'
      unfold Link.brings
      rw [ih l.src (hl l l1) (.single ⟨l, l1, rfl, of_decide_eq_true l2⟩)]
    rw [this, he'] at he
    injection he with he
    injection he with he _
    exact he.symm
  exact fun d hd => key d.id (List.mem_map_of_mem hd)

/-- C86: all process calls of such a session succeed, if the program is careful (C79) and its nodes can be rendered. -/
theorem C86_runs [AddZeroClass S] (ops : NodeOps S P C) (mf mc sr : Nat) (hm : 0 < mf) (I : Dsp P → Prop)
    (A : Id → C → Prop) (H : Healthy ops mf sr I A) (program : Nat → List (ApiCall P C)) (hP : Program program)
    (hI : ∀ i, ∀ c ∈ program i, c.Healthy I A)
    (hc : ∀ n, Allowed (fun h c => h.Typed c ∧ h.Careful mc c) Holding.empty ((List.range n).flatMap program))
    (waiting ks : List (Call S P C)) (hk : ∀ k ∈ waiting ++ ks, k.Valid) (hd : Delivered program waiting ks) :
    ∃ E, calls ops (new sr mc mf) (waiting ++ ks) = .ok E := by
  have hdrop : ∀ n, drops ((List.range n).flatMap program) = 0 := by
    intro n
    rw [drops, List.countP_eq_zero]
    intro c hc hdr
    obtain ⟨i, _, hi⟩ := List.mem_flatMap.mp hc
    cases c <;> simp only [Bool.false_eq_true] at hdr
    rename_i a
    by_cases h0 : i = 0
    · subst h0
      exact hP.builds _ hi
    · exact hP.requests i (by omega) _ hi
  have hh : ∀ n, n ≤ ks.length → 0 < n → history (waiting ++ ks.take n) =
      ((List.range n).flatMap program).map ApiCall.command := by
    intro n
    induction n with
    | zero => intro _ h; omega
    | succ n ih =>
      intro hn _
      have hlt : n < ks.length := by omega
      rw [List.take_succ_eq_append_getElem hlt, ← List.append_assoc]
      have : ∀ a : List (Call S P C), history (a ++ [ks[n]]) = history a ++ ks[n].commands.map Prod.fst := by
        intro a; simp [history]
      rw [this, List.range_succ, List.flatMap_append, List.map_append]
      by_cases h0 : n = 0
      · subst h0
        have := hd.first ks[0] (List.getElem?_eq_getElem hlt)
        simpa using this
      · rw [ih (by omega) (by omega), hd.later n ks[n] (by omega) (List.getElem?_eq_getElem hlt)]
        simp
  refine C79_healthy_programs_run_partial ops mf mc sr hm I A H ((List.range (ks.length + 1)).flatMap program) ?_ (hc _)
    (by rw [hdrop]; omega) _ hk ?_
  · intro c hc
    obtain ⟨i, _, hi⟩ := List.mem_flatMap.mp hc
    exact hI i c hi
  · by_cases h0 : ks = []
    · subst h0
      simpa [history] using hd.part
    · have := hh ks.length (le_refl _) (List.length_pos_iff.mpr h0)
      rw [List.take_length] at this
      rw [this, List.range_succ, List.flatMap_append, List.map_append]
      exact List.prefix_append _ _

/-! ## An example -/

/-- Nodes that multiply by a number, which can be changed, for examples. -/
def factorOps : NodeOps Int Int Int where
  run s b := .ok (fun c f => s * (b.input c f).getD 0, s)
  change _ r := .ok r

/-- The input goes through node 1 to nodes 2 and 3, and both of them through node 4 to the output. -/
def diamond : List (ApiCall Int Int) :=
  [.create 1 1 1 2, .create 2 1 1 3, .create 3 1 1 5, .create 4 1 1 1, .connectToInput ⟨1, 1⟩, .connectTo ⟨1, 1⟩ ⟨2, 1⟩,
    .connectTo ⟨1, 1⟩ ⟨3, 1⟩, .connectTo ⟨2, 1⟩ ⟨4, 1⟩, .connectTo ⟨3, 1⟩ ⟨4, 1⟩, .connectToOutput ⟨4, 1⟩, .start]

/-- The factor of node 3 becomes 7 before the second process call. -/
def diamondProgram : Nat → List (ApiCall Int Int)
  | 0 => diamond
  | 1 => [.change ⟨3, 1⟩ 7]
  | _ => []

theorem acyclic_of_lt {ls : List Link} (h : ∀ l ∈ ls, l.src < l.dst) : Acyclic ls := by
  have hlt : ∀ a b, Relation.TransGen (fun a b => ∃ l ∈ ls, l.src = a ∧ l.dst = b) a b → a < b := by
    intro a b hab
    induction hab with
    | single h' => obtain ⟨l, hl, rfl, rfl⟩ := h'; exact h l hl
    | tail _ h' ih => obtain ⟨l, hl, rfl, rfl⟩ := h'; exact ih.trans (h l hl)
  exact fun n hn => lt_irrefl _ (hlt n n hn)

theorem holding_acyclic_of_lt (h : Holding) (hl : ∀ l ∈ h.links, l.src < l.dst) : h.Acyclic := acyclic_of_lt hl

theorem diamond_allowed : Allowed (fun h c => h.Typed c ∧ h.Careful 2 c) Holding.empty (diamond ++ [.change ⟨3, 1⟩ 7]) := by
  have h1 : ∀ ls, Holding.Holds ⟨[⟨1, 1, 1⟩, ⟨2, 1, 1⟩, ⟨3, 1, 1⟩, ⟨4, 1, 1⟩], ls⟩ ⟨1, 1⟩ := fun ls => ⟨_, .head _, rfl, rfl⟩
  have h2 : ∀ ls, Holding.Holds ⟨[⟨1, 1, 1⟩, ⟨2, 1, 1⟩, ⟨3, 1, 1⟩, ⟨4, 1, 1⟩], ls⟩ ⟨2, 1⟩ :=
    fun ls => ⟨_, .tail _ (.head _), rfl, rfl⟩
  have h3 : ∀ ls, Holding.Holds ⟨[⟨1, 1, 1⟩, ⟨2, 1, 1⟩, ⟨3, 1, 1⟩, ⟨4, 1, 1⟩], ls⟩ ⟨3, 1⟩ :=
    fun ls => ⟨_, .tail _ (.tail _ (.head _)), rfl, rfl⟩
  have h4 : ∀ ls, Holding.Holds ⟨[⟨1, 1, 1⟩, ⟨2, 1, 1⟩, ⟨3, 1, 1⟩, ⟨4, 1, 1⟩], ls⟩ ⟨4, 1⟩ :=
    fun ls => ⟨_, .tail _ (.tail _ (.tail _ (.head _))), rfl, rfl⟩
  refine ⟨⟨?_, ?_⟩, ⟨?_, ?_⟩, ⟨?_, ?_⟩, ⟨?_, ?_⟩, ⟨h1 _, trivial⟩, ⟨⟨h1 _, h2 _⟩, ?_, holding_acyclic_of_lt _ ?_⟩,
    ⟨⟨h1 _, h3 _⟩, ?_, holding_acyclic_of_lt _ ?_⟩, ⟨⟨h2 _, h4 _⟩, ?_, holding_acyclic_of_lt _ ?_⟩,
    ⟨⟨h3 _, h4 _⟩, ?_, holding_acyclic_of_lt _ ?_⟩, ⟨h4 _, trivial⟩, ⟨trivial, trivial⟩, ⟨h3 _, trivial⟩, trivial⟩
  all_goals simp [Holding.Typed, Holding.Careful, Holding.empty, Holding.after, Holding.Joined]

theorem allowed_prefix {allowed : Holding → ApiCall P C → Prop} (as bs : List (ApiCall P C)) (h : Holding)
    (H : Allowed allowed h (as ++ bs)) : Allowed allowed h as := ((allowed_append _ _ _).mp H).1

theorem diamondProgram_allowed (n : Nat) :
    Allowed (fun h c => h.Typed c ∧ h.Careful 2 c) Holding.empty ((List.range n).flatMap diamondProgram) := by
  match n with
  | 0 => trivial
  | 1 => exact allowed_prefix _ [.change ⟨3, 1⟩ 7] _ diamond_allowed
  | n + 2 =>
    have : (List.range (n + 2)).flatMap diamondProgram = diamond ++ [.change ⟨3, 1⟩ 7] := by
      rw [Nat.add_comm, List.range_add, List.flatMap_append]
      have hz : ((List.range n).map (2 + ·)).flatMap diamondProgram = [] := by
        rw [List.flatMap_eq_nil_iff]
        intro x hx
        obtain ⟨y, _, rfl⟩ := List.mem_map.mp hx
        rw [Nat.add_comm]
        rfl
      rw [hz, List.append_nil]
      rfl
    rw [this]
    exact diamond_allowed

theorem typed_of_careful {mc : Nat} (as : List (ApiCall P C)) : ∀ h : Holding,
    Allowed (fun h c => h.Typed c ∧ h.Careful mc c) h as → Allowed Holding.Typed h as := by
  induction as with
  | nil => intro h _; trivial
  | cons c as ih => intro h H; exact ⟨H.1.1, ih _ H.2⟩

theorem diamondProgram_program : Program diamondProgram where
  builds := by
    intro c hc
    simp only [diamondProgram, diamond, List.mem_cons, List.not_mem_nil, or_false] at hc
    rcases hc with rfl | rfl | rfl | rfl | rfl | rfl | rfl | rfl | rfl | rfl | rfl <;> trivial
  typed := typed_of_careful _ _ (allowed_prefix _ _ _ diamond_allowed)
  starts := by simp [diamondProgram, diamond]
  requests := by
    intro i hi c hc
    match i with
    | 1 =>
      simp only [diamondProgram, List.mem_cons, List.not_mem_nil, or_false] at hc
      subst hc
      trivial
    | i + 2 => cases hc

theorem diamond_plain : Plain (made diamond) (links diamond) (input diamond) := by
  constructor
  · simp [diamond, links, input]
  · simp [diamond, links, made]

/-- A process call of ten frames with these calls of the API. -/
def factorCall (as : List (ApiCall Int Int)) (x : List Int) : Call Int Int Int :=
  ⟨as.map fun c => (c.command, .plain), .owned x 1 10 48000, .owned (List.replicate 10 0) 1 10 48000,
    fun _ => Env.plain⟩

/-- The diamond in a session of three calls: the program is half made in the first. -/
example : ∃ (waiting ks : List (Call Int Int Int)) (E : Processor Int Int), (∀ k ∈ waiting ++ ks, k.Valid) ∧
    Delivered diamondProgram waiting ks ∧ waiting ≠ [] ∧ ks ≠ [] ∧
    calls factorOps (new 48000 2 4) (waiting ++ ks) = .ok E := by
  have hv : ∀ k ∈ [factorCall (diamond.take 3) (List.replicate 10 1)] ++
      [factorCall (diamond.drop 3) (List.replicate 10 1), factorCall [.change ⟨3, 1⟩ 7] (List.replicate 10 1)], k.Valid := by
    have : ∀ as, (factorCall as (List.replicate 10 1)).Valid := by
      intro as
      refine ⟨?_, ?_, trivial, le_refl _, ?_⟩
      · simp [factorCall, Buf.WF]
      · simp [factorCall, Buf.WF]
      · intro x hx
        obtain ⟨y, _, rfl⟩ := List.mem_map.mp hx
        exact command_api y
    intro k hk
    simp only [List.cons_append, List.nil_append, List.mem_cons, List.not_mem_nil, or_false] at hk
    rcases hk with rfl | rfl | rfl <;> exact this _
  have hd : Delivered diamondProgram [factorCall (diamond.take 3) (List.replicate 10 1)]
      [factorCall (diamond.drop 3) (List.replicate 10 1), factorCall [.change ⟨3, 1⟩ 7] (List.replicate 10 1)] := by
    refine ⟨?_, ⟨_, rfl⟩, ?_, ?_⟩
    · simp [history, factorCall, diamond, ApiCall.command]
    · intro k hk
      cases hk
      rfl
    · intro i k hi hk
      match i with
      | 1 => cases hk; rfl
      | i + 2 => cases hk
  obtain ⟨E, hE⟩ := C86_runs factorOps 4 2 48000 (by norm_num) _ _
    (healthy_of_total 4 48000 (fun s b => ⟨_, rfl⟩) (fun s r => ⟨_, rfl⟩)) diamondProgram diamondProgram_program
    (fun i => calls_healthy_of_total _) diamondProgram_allowed _ _ hv hd
  exact ⟨_, _, E, hv, hd, by simp, by simp, hE⟩

/-! ## Effects -/

section Effects

variable {N : Platform}

/-- C86: if the nodes are effects, what comes out of each of them is what the effect does to the sum of what its
connections bring, with the values that its parameters have at each frame. -/
theorem C86_effects (hz : ∀ x, N.isZero x = true → x = 0) (ho : ∀ x, N.isOne x = true → x = 1) (mf mc sr : Nat)
    (hm : 0 < mf) (hsr : 0 < sr) (program : Nat → List (ApiCall FxNode ParameterRequest)) (hP : Program program)
    (hp : Plain (made (program 0)) (links (program 0)) (input (program 0))) (kinds : List (Id × FxKind))
    (hk : ∀ q ∈ kinds, q.2.Usable) (hmade : Made sr mf kinds (made (program 0)))
    (waiting ks : List (Call ℝ FxNode ParameterRequest)) (hv : ∀ k ∈ waiting ++ ks, k.Valid)
    (hd : Delivered program waiting ks) (E : Processor ℝ FxNode)
    (hE : calls (Fx.ops N) (new sr mc mf) (waiting ++ ks) = .ok E) :
    ∃ es sig, ChainHistory mf sr (fun i => requests (program i)) ks es ∧
      (∀ q ∈ kinds, q.2.Sounding sr (q.2.track sr es q.1)
          (arriving (links (program 0)) (input (program 0)) (sessionInput true mc ks) sig q.1) (framesIn ks) → ∀ c F, F < framesIn ks →
        sig q.1 c F = q.2.heard sr (q.2.track sr es q.1)
          (arriving (links (program 0)) (input (program 0)) (sessionInput true mc ks) sig q.1) c F) ∧
      ∀ i k E1 o E2, (waiting ++ ks)[i]? = some k →
        calls (Fx.ops N) (new sr mc mf) ((waiting ++ ks).take i) = .ok E1 →
        E1.process (Fx.ops N) k.env k.commands k.input k.output = .ok (o, E2) →
        ∀ c f, c < k.output.channelCount → f < k.output.frameCount →
          o.sample? c f = some (if i < waiting.length then 0
            else heard (output (program 0)) mc sig c (framesIn (ks.take (i - waiting.length)) + f)) := by
  obtain ⟨es, sig, h1, h2, h3⟩ := C86_network (Fx.ops N) mf mc sr hm program hP hp waiting ks hv hd E hE
  refine ⟨es, sig, h1, ?_, h3⟩
  intro q hq hs c F hF
  have ht := Chain.history_total h1
  have hes : ∀ e ∈ es, (0 < e.frames ∧ e.frames ≤ mf) ∨ ∃ j r, e = .change j r := by
    intro e he
    have := Sampler.history_events hm h1 e he
    cases e with
    | change i c => exact Or.inr ⟨i, c, rfl⟩
    | block t n => exact Or.inl this
  obtain ⟨i, hi, rfl⟩ := List.mem_iff_getElem.mp hq
  have hlen := hmade.length_eq
  have hmk := (List.forall₂_iff_get.mp hmade).2 i hi (by omega)
  simp only [List.get_eq_getElem] at hmk
  have hid : ((made (program 0))[i]'(by omega)).id = kinds[i].1 := by
    obtain ⟨d, m1, m2, _⟩ := Fx.make_ok (sr := sr) hm kinds[i].1 kinds[i].2 (hk _ hq)
    rw [m1] at hmk
    injection hmk with hmk
    rw [← hmk, m2]
  obtain ⟨d', h⟩ := h2 _ (List.getElem_mem (by omega : i < (made (program 0)).length))
  rw [hid] at h
  exact Fx.node_heard hz ho hsr hm _ _ (hk _ hq) _ hmk es hes (by rw [ht]; exact hs) _ _ h c F (by omega)

end Effects

end Network
end Rawdio
