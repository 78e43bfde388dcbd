import Verif.Lemmas.RewiringRun
import Verif.Props.MixedNodes

/-!
# Networks that change while they play (C96)
-/

namespace Rawdio
namespace Network

open Processor

variable {S P C : Type}

/-- C96: a program may make and drop nodes, connect and disconnect them, switch the input and the output, and start and
stop the engine before any process call. Whatever the nodes do and however the frames are divided over process calls and
blocks: a change takes effect from the first frame of the next process call on; every node goes on from its own state
over all of it, beginning with the state in which it is made; and the engine plays the signal of the node that is
connected to the output then, or silence while it is stopped or that node is not there. -/
theorem C96_rewiring [AddZeroClass S] (ops : NodeOps S P C) (mf mc sr : Nat) (hm : 0 < mf)
    (program : Nat → List (ApiCall P C))
    (ha : ∀ m, Allowed (fun h c => h.Typed c ∧ h.Careful mc c) Holding.empty (upTo program m)) (hu : Unique program)
    (ks : List (Call S P C)) (hp : ∀ m, m < ks.length → started (upTo program m) = true →
      Plain (made (upTo program m)) (holding (upTo program m)).links (input (upTo program m)))
    (hv : ∀ k ∈ ks, k.Valid) (hc : Calls program ks) (E : Processor S P)
    (hE : calls ops (new sr mc mf) ks = .ok E) :
    ∃ es x sig, Happens mf sr program ks es ∧ Changing ops mc sr program ks es x sig ∧
      ∀ m k E1 o E2, ks[m]? = some k → calls ops (new sr mc mf) (ks.take m) = .ok E1 →
        E1.process ops k.env k.commands k.input k.output = .ok (o, E2) →
        ∀ c f, c < k.output.channelCount → f < k.output.frameCount →
          o.sample? c f = some (if started (upTo program m) = true then
            heard (output (upTo program m)) mc sig c (played program (ks.take m) + f) else 0) := by
  obtain ⟨_, es, x, sig, _, _, _, _, h1, h2, _, h3⟩ := session_rewiring hm ha hu ks E hp hv hc hE
  exact ⟨es, x, sig, h1, h2, h3⟩

/-- C96: these equations leave no choice: at every frame that is played, the signals of the nodes are determined by the
program, the input and the times of the blocks. -/
theorem C96_determined [Zero S] [Add S] (ops : NodeOps S P C) (mf mc sr : Nat) (program : Nat → List (ApiCall P C))
    (ha : ∀ m, Allowed (fun h c => h.Typed c ∧ h.Careful mc c) Holding.empty (upTo program m))
    (ks : List (Call S P C)) (es : List (List (ChainEvent C))) (he : Happens mf sr program ks es) (x sig x' sig' : Signals S)
    (h : Changing ops mc sr program ks es x sig) (h' : Changing ops mc sr program ks es x' sig') :
    ∀ n c F, F < played program ks → sig n c F = sig' n c F := by
  have key : ∀ m, m ≤ ks.length → ∀ n c F, F < played program (ks.take m) → sig n c F = sig' n c F ∧ x n c F = x' n c F := by
    intro m
    induction m with
    | zero => intro _ n c F hF; simp [played] at hF
    | succ m ih =>
      intro hm
      have ih := ih (by omega)
      have hlt : m < ks.length := by omega
      have hk := List.getElem?_eq_getElem hlt
      have htake := played_take program hk
      by_cases hs : started (upTo program m) = true
      swap
      · rw [if_neg hs, Nat.add_zero] at htake
        rw [htake]
        exact ih
      rw [if_pos hs] at htake
      have hac := holding_acyclic _ (ha m) (h := Holding.empty) (agrees_empty (P := P) mc).acyclic
      haveI : IsStrictOrder Id (Relation.TransGen (holding (upTo program m)).Joined) :=
        { irrefl := hac, trans := fun _ _ _ => Relation.TransGen.trans }
      have hw : ({i | There (upTo program m) i} : Set Id).WellFoundedOn
          (Relation.TransGen (holding (upTo program m)).Joined) := by
        refine Set.Finite.wellFoundedOn ((List.finite_toSet ((holding (upTo program m)).nodes.map Held.id)).subset ?_)
        rintro i ⟨y, hy, rfl⟩
        exact List.mem_map_of_mem hy
      -- what goes in is the same if what comes out of the sources is
      have hin : ∀ n, (∀ l ∈ (holding (upTo program m)).links, l.dst = n → ∀ c f, f < ks[m].output.frameCount →
          sig l.src c (played program (ks.take m) + f) = sig' l.src c (played program (ks.take m) + f)) →
          ∀ c F, F < played program (ks.take (m + 1)) → x n c F = x' n c F := by
        intro n hsrc c F hF
        by_cases hF' : F < played program (ks.take m)
        · exact (ih n c F hF').2
        · obtain ⟨f, rfl⟩ : ∃ f, F = played program (ks.take m) + f := ⟨F - played program (ks.take m), by omega⟩
          rw [h.goesIn m _ hk hs n c f (by omega), h'.goesIn m _ hk hs n c f (by omega)]
          unfold arriving
          congr 1
          apply List.map_congr_left
          intro l hl
          obtain ⟨l1, l2⟩ := List.mem_filter.mp hl
          unfold Link.brings
          rw [hsrc l l1 (of_decide_eq_true l2) _ f (by omega)]
      have hout : ∀ n, ∀ c f, f < ks[m].output.frameCount →
          sig n c (played program (ks.take m) + f) = sig' n c (played program (ks.take m) + f) := by
        have hthere : ∀ n ∈ ({i | There (upTo program m) i} : Set Id), ∀ c f, f < ks[m].output.frameCount →
            sig n c (played program (ks.take m) + f) = sig' n c (played program (ks.take m) + f) := by
          intro n hn
          refine hw.induction (P := fun n => ∀ c f, f < ks[m].output.frameCount →
            sig n c (played program (ks.take m) + f) = sig' n c (played program (ks.take m) + f)) hn ?_
          intro n hn ihn c f hf
          obtain ⟨m0, hm0, d, hd, rfl⟩ := there_made hn
          obtain ⟨y, d1, r1, r2⟩ := h.comesOut m0 m hm0 hlt d hd hn
          obtain ⟨y', d2, r3, r4⟩ := h'.comesOut m0 m hm0 hlt d hd hn
          have htot := happens_total he (show m0 ≤ m + 1 by omega) hm
          have hmono := played_mono program ks hm0
          have hxx := hin d.id (by
            intro l hl hld
            by_cases ht : There (upTo program m) l.src
            · exact ihn l.src ht (.single ⟨l, hl, rfl, hld⟩)
            · intro c f hf
              rw [h.absent m _ hk hs _ ht c f hf, h'.absent m _ hk hs _ ht c f hf])
          rw [Chain.chainRun_congr _ (by simp) (y := later (played program (ks.take m0)) (x' d.id)), r3] at r1
          · injection r1 with r1
            injection r1 with r1 _
            have e1 := r2 c (played program (ks.take m) - played program (ks.take m0) + f) (by omega)
            have e2 := r4 c (played program (ks.take m) - played program (ks.take m0) + f) (by omega)
            rw [show played program (ks.take m0) + (played program (ks.take m) - played program (ks.take m0) + f) =
              played program (ks.take m) + f by omega] at e1 e2
            rw [← e1, ← e2, r1]
          · intro c f hf
            exact hxx c _ (by omega)
        intro n c f hf
        by_cases ht : There (upTo program m) n
        · exact hthere n ht c f hf
        · rw [h.absent m _ hk hs _ ht c f hf, h'.absent m _ hk hs _ ht c f hf]
      intro n c F hF
      refine ⟨?_, hin n (fun l _ _ => hout l.src) c F hF⟩
      by_cases hF' : F < played program (ks.take m)
      · exact (ih n c F hF').1
      · obtain ⟨f, rfl⟩ : ∃ f, F = played program (ks.take m) + f := ⟨F - played program (ks.take m), by omega⟩
        exact hout n c f (by omega)
  intro n c F hF
  exact (key ks.length (le_refl _) n c F (by rw [List.take_length]; exact hF)).1

/-- C96: all process calls of such a session succeed, if at most 512 nodes are dropped and the nodes can be rendered. -/
theorem C96_runs [AddZeroClass S] (ops : NodeOps S P C) (mf mc sr : Nat) (hm : 0 < mf) (I : Dsp P → Prop)
    (A : Id → C → Prop) (H : Healthy ops mf sr I A) (program : Nat → List (ApiCall P C))
    (hI : ∀ m, ∀ c ∈ program m, c.Healthy I A)
    (ha : ∀ m, Allowed (fun h c => h.Typed c ∧ h.Careful mc c) Holding.empty (upTo program m))
    (hd : ∀ m, drops (upTo program m) ≤ 512) (ks : List (Call S P C)) (hv : ∀ k ∈ ks, k.Valid)
    (hc : Calls program ks) : ∃ E, calls ops (new sr mc mf) ks = .ok E := by
  refine C79_healthy_programs_run_partial ops mf mc sr hm I A H (upTo program ks.length) ?_ (ha _) (hd _) ks hv ?_
  · intro c hc'
    obtain ⟨i, _, hi⟩ := List.mem_flatMap.mp hc'
    exact hI i c hi
  · rw [upTo_eq, List.map_append, ← history_done hc]
    exact List.prefix_append _ _

/-- C96: a process call is silent if the node that the program has connected to the output is dropped before it. -/
theorem C96_dropped [AddZeroClass S] (ops : NodeOps S P C) (mf mc sr : Nat) (hm : 0 < mf)
    (program : Nat → List (ApiCall P C))
    (ha : ∀ m, Allowed (fun h c => h.Typed c ∧ h.Careful mc c) Holding.empty (upTo program m)) (hu : Unique program)
    (ks : List (Call S P C)) (hp : ∀ m, m < ks.length → started (upTo program m) = true →
      Plain (made (upTo program m)) (holding (upTo program m)).links (input (upTo program m)))
    (hv : ∀ k ∈ ks, k.Valid) (hc : Calls program ks) (E : Processor S P)
    (hE : calls ops (new sr mc mf) ks = .ok E) (m : Nat) (n : Id) (hn : output (upTo program m) = some n)
    (hd : ¬ There (upTo program m) n) (k : Call S P C) (E1 : Processor S P) (o : Buf S) (E2 : Processor S P)
    (hk : ks[m]? = some k) (h1 : calls ops (new sr mc mf) (ks.take m) = .ok E1)
    (h2 : E1.process ops k.env k.commands k.input k.output = .ok (o, E2)) (c f : Nat) (hcc : c < k.output.channelCount)
    (hf : f < k.output.frameCount) : o.sample? c f = some 0 := by
  obtain ⟨es, x, sig, _, g2, g3⟩ := C96_rewiring ops mf mc sr hm program ha hu ks hp hv hc E hE
  rw [g3 m k E1 o E2 hk h1 h2 c f hcc hf]
  split
  · rename_i hs
    unfold heard
    rw [hn]
    simp [g2.absent m k hk hs n hd c f hf]
  · rfl

/-! ## Nodes of different kinds -/

/-- C96: effects, mixers, ADSR envelopes and samplers in a network that changes: a node that is made before process call
`m` and still there at process call `n` makes of what goes into it from the first frame of call `m` to the last of call
`n` what a node of its kind makes of it, with the parameters, levels and events that are requested of it, whatever
changes around it. -/
theorem C96_mixed {N : Platform} {al : Int → Nat → Nat → Nat → Nat × Nat} (hz : ∀ x, N.isZero x = true → x = 0)
    (ho : ∀ x, N.isOne x = true → x = 1) (mf mc sr : Nat) (hm : 0 < mf) (hsr : 0 < sr) (hsr' : sr < 2 ^ 32)
    (hlen : mf * sr ≤ 2 ^ 33) (program : Nat → List (ApiCall MixedNode MixedRequest))
    (hr : ∀ m, ∀ x ∈ requests (program m), x.2.Proper) (ks : List (Call ℝ MixedNode MixedRequest))
    (es : List (List (ChainEvent MixedRequest))) (x sig : Signals ℝ) (he : Happens mf sr program ks es)
    (h : Changing (MixedNode.ops N al) mc sr program ks es x sig) (m n : Nat) (hmn : m ≤ n) (hn : n < ks.length) (i : Id)
    (kind : NodeKind) (hk : kind.Usable) (d : Dsp MixedNode) (hmake : kind.make sr mf i = .ok d)
    (hd : d ∈ made (program m)) (ht : There (upTo program n) i) :
    kind.Makes sr (played program (ks.take (n + 1)) - played program (ks.take m)) i ((es.take (n + 1)).drop m).flatten
      (later (played program (ks.take m)) (x i)) (later (played program (ks.take m)) (sig i)) := by
  have hid : d.id = i := by
    obtain ⟨d', m1, m2, _⟩ := NodeKind.make_ok (sr := sr) hm i kind hk
    rw [m1] at hmake
    injection hmake with hmake
    rw [← hmake, m2]
  have htot := happens_total he (show m ≤ n + 1 by omega) (show n + 1 ≤ ks.length by omega)
  obtain ⟨y, d', r1, r2⟩ := h.comesOut m n hmn hn d hd (hid ▸ ht)
  rw [hid] at r1 r2
  have := NodeKind.node_makes hz ho hsr hsr' hm hlen i kind hk d hmake _ (by
    intro e he'
    have := happens_events hm he e (by
      obtain ⟨l, hl, he'⟩ := List.mem_flatten.mp he'
      exact List.mem_flatten.mpr ⟨l, List.mem_of_mem_take (List.mem_of_mem_drop hl), he'⟩)
    cases e with
    | change j r =>
      obtain ⟨l, hl⟩ := this
      exact hr l _ hl
    | block t n => exact this) r1
  rw [show ChainEvent.total ((es.take (n + 1)).drop m).flatten =
    played program (ks.take (n + 1)) - played program (ks.take m) by omega] at this
  exact makes_congr this fun c F hF => by
    rw [r2 c F (by omega)]
    rfl

/-- C96: all process calls of such a session succeed, if at most 512 nodes are dropped, only what the nodes have is
requested of them, and no oscillator comes to a whole number of cycles at a frame. -/
theorem C96_mixed_runs {N : Platform} {al : Int → Nat → Nat → Nat → Nat × Nat} (hz : ∀ x, N.isZero x = true → x = 0)
    (ho : ∀ x, N.isOne x = true → x = 1) (mf mc sr : Nat) (hm : 0 < mf) (hsr : 0 < sr) (hsr' : sr < 2 ^ 32)
    (hlen : mf * sr ≤ 2 ^ 33) (program : Nat → List (ApiCall MixedNode MixedRequest)) (kinds : List (Id × NodeKind))
    (hk : ∀ q ∈ kinds, q.2.Usable ∧ q.2.Renders sr)
    (hmade : ∀ m, ∀ d ∈ made (program m), ∃ k, (d.id, k) ∈ kinds ∧ k.make sr mf d.id = .ok d)
    (hr : ∀ m, ∀ x ∈ requests (program m), ∀ k, (x.1, k) ∈ kinds → k.Allows x.2)
    (ha : ∀ m, Allowed (fun h c => h.Typed c ∧ h.Careful mc c) Holding.empty (upTo program m))
    (hd : ∀ m, drops (upTo program m) ≤ 512) (ks : List (Call ℝ MixedNode MixedRequest)) (hv : ∀ k ∈ ks, k.Valid)
    (hc : Calls program ks) : ∃ E, calls (MixedNode.ops N al) (new sr mc mf) ks = .ok E := by
  refine C96_runs _ mf mc sr hm _ _ (NodeKind.mixed_healthy (al := al) hz ho hsr hlen kinds) program ?_ ha hd ks hv hc
  intro m c hmc
  cases c with
  | create id inputs outputs s =>
    obtain ⟨k, h1, h2⟩ := hmade m ⟨id, inputs, outputs, s⟩ (List.mem_filterMap.mpr ⟨_, hmc, rfl⟩)
    exact ⟨k, h1, NodeKind.new_sound hm hsr hsr' (hk _ h1).1 (hk _ h1).2 h2⟩
  | change node r =>
    intro k hk'
    exact hr m (node.id, r) (List.mem_filterMap.mpr ⟨_, hmc, rfl⟩) k hk'
  | _ => trivial

/-! ### Examples -/

/-- The input goes through nodes 1, 2 and 9 to the output. Before the second process call node 3 takes the place of node
2, which is dropped; then the engine is stopped, and then started again with node 3 as the output. Before the fifth call
node 3 is disconnected and dropped, so that nothing is heard. -/
def swapProgram : Nat → List (ApiCall Int Int)
  | 0 => [.create 1 1 1 2, .create 2 1 1 3, .create 9 1 1 1, .connectToInput ⟨1, 1⟩, .connectTo ⟨1, 1⟩ ⟨2, 1⟩,
      .connectTo ⟨2, 1⟩ ⟨9, 1⟩, .connectToOutput ⟨9, 1⟩, .start]
  | 1 => [.create 3 1 1 10, .connectTo ⟨1, 1⟩ ⟨3, 1⟩, .connectTo ⟨3, 1⟩ ⟨9, 1⟩, .disconnectFromNode ⟨2, 1⟩ ⟨9, 1⟩,
      .disconnectFromNode ⟨1, 1⟩ ⟨2, 1⟩, .drop ⟨2, 1⟩, .change ⟨3, 1⟩ 11]
  | 2 => [.stop]
  | 3 => [.start, .connectToOutput ⟨3, 1⟩]
  | 4 => [.disconnectFromNode ⟨1, 1⟩ ⟨3, 1⟩, .disconnectFromNode ⟨3, 1⟩ ⟨9, 1⟩, .drop ⟨3, 1⟩]
  | _ => []

theorem swap_upTo (m : Nat) : upTo swapProgram m <+: upTo swapProgram 4 := by
  rcases Nat.lt_or_ge 4 m with h | h
  · have : upTo swapProgram m = upTo swapProgram 4 := by
      obtain ⟨n, rfl⟩ := Nat.exists_eq_add_of_lt h
      rw [upTo, show 4 + n + 1 + 1 = 5 + (n + 1) by omega, List.range_add, List.flatMap_append]
      have hz : ((List.range (n + 1)).map (5 + ·)).flatMap swapProgram = [] := by
        rw [List.flatMap_eq_nil_iff]
        intro x hx
        obtain ⟨y, _, rfl⟩ := List.mem_map.mp hx
        rw [Nat.add_comm]
        rfl
      rw [hz, List.append_nil]
      rfl
    rw [this]
  · have : ∀ a b, a ≤ b → upTo swapProgram a <+: upTo swapProgram b := by
      intro a b hab
      induction b with
      | zero => obtain rfl : a = 0 := by omega
                exact List.prefix_refl _
      | succ b ih =>
        rcases Nat.lt_or_ge a (b + 1) with h1 | h1
        · rw [upTo_succ]
          exact (ih (by omega)).trans (List.prefix_append _ _)
        · obtain rfl : a = b + 1 := by omega
          exact List.prefix_refl _
    exact this m 4 h

theorem swap_allowed (m : Nat) :
    Allowed (fun h c => h.Typed c ∧ h.Careful 2 c) Holding.empty (upTo swapProgram m) := by
  have h4 : Allowed (fun h c => h.Typed c ∧ h.Careful 2 c) Holding.empty (upTo swapProgram 4) := by
    rw [show upTo swapProgram 4 = swapProgram 0 ++ swapProgram 1 ++ swapProgram 2 ++ swapProgram 3 ++ swapProgram 4 from rfl]
    simp only [swapProgram, List.cons_append, List.nil_append]
    refine ⟨⟨?_, ?_⟩, ⟨?_, ?_⟩, ⟨?_, ?_⟩, ⟨?_, trivial⟩, ⟨?_, ?_, holding_acyclic_of_lt _ ?_⟩,
      ⟨?_, ?_, holding_acyclic_of_lt _ ?_⟩, ⟨?_, trivial⟩, ⟨trivial, trivial⟩, ⟨?_, ?_⟩, ⟨?_, ?_, holding_acyclic_of_lt _ ?_⟩,
      ⟨?_, ?_, holding_acyclic_of_lt _ ?_⟩, ⟨?_, trivial⟩, ⟨?_, trivial⟩, ⟨?_, ?_⟩, ⟨?_, trivial⟩, ⟨trivial, trivial⟩,
      ⟨trivial, trivial⟩, ⟨?_, trivial⟩, ⟨?_, trivial⟩, ⟨?_, trivial⟩, ⟨?_, ?_⟩, trivial⟩
    all_goals simp [Holding.Typed, Holding.Careful, Holding.empty, Holding.after, Holding.Joined, Holding.Holds]
  obtain ⟨t, ht⟩ := swap_upTo m
  rw [← ht] at h4
  exact allowed_prefix _ _ _ h4

theorem swap_unique : Unique swapProgram := by
  intro m
  obtain ⟨t, ht⟩ := swap_upTo m
  have h4 : ((made (upTo swapProgram 4)).map Dsp.id).Nodup := by
    rw [show (made (upTo swapProgram 4)).map Dsp.id = [1, 2, 9, 3] from rfl]
    decide
  rw [← ht, made_append, List.map_append] at h4
  exact (List.nodup_append.mp h4).1

theorem swap_plain (m : Nat) (hm : m < 5) :
    Plain (made (upTo swapProgram m)) (holding (upTo swapProgram m)).links (input (upTo swapProgram m)) := by
  have hi : ∀ m < 5, input (upTo swapProgram m) = some 1 := by
    intro m hm
    match m with
    | 0 | 1 | 2 | 3 | 4 => rfl
    | m + 5 => omega
  have hl : ∀ m < 5, ∀ l ∈ (holding (upTo swapProgram m)).links, l.dst ≠ 1 ∧ l.channels = 1 := by
    intro m hm
    match m with
    | 0 | 1 | 2 | 3 | 4 =>
      simp [upTo, List.range_succ, swapProgram, holding, Holding.afterAll, Holding.after, Holding.empty]
    | m + 5 => omega
  have hd : ∀ d ∈ made (upTo swapProgram m), d.outputCount = 1 := by
    intro d hd
    obtain ⟨t, ht⟩ := swap_upTo m
    have : d ∈ made (upTo swapProgram 4) := by
      rw [← ht, made_append]
      exact List.mem_append_left _ hd
    rw [show made (upTo swapProgram 4) = [⟨1, 1, 1, 2⟩, ⟨2, 1, 1, 3⟩, ⟨9, 1, 1, 1⟩, ⟨3, 1, 1, 10⟩] from rfl] at this
    simp only [List.mem_cons, List.not_mem_nil, or_false] at this
    rcases this with rfl | rfl | rfl | rfl <;> rfl
  refine ⟨?_, ?_⟩
  · intro l hll h
    rw [hi m hm] at h
    injection h with h
    exact (hl m hm l hll).1 h.symm
  · intro l hll _ _ _ d hd' _
    rw [hd d hd', (hl m hm l hll).2]

/-- The process calls of this program. -/
def swapCalls : List (Call Int Int Int) :=
  (List.range 5).map fun m => factorCall (swapProgram m) (List.replicate 10 1)

theorem swap_valid : ∀ k ∈ swapCalls, k.Valid := by
  intro k hk
  obtain ⟨m, _, rfl⟩ := List.mem_map.mp hk
  refine ⟨?_, ?_, trivial, le_refl _, ?_⟩
  · simp [factorCall, Buf.WF]
  · simp [factorCall, Buf.WF]
  · intro x hx
    obtain ⟨y, _, rfl⟩ := List.mem_map.mp hx
    exact command_api y

theorem swap_calls : Calls swapProgram swapCalls := by
  intro i k hk
  rw [swapCalls, List.getElem?_map] at hk
  obtain ⟨m, hm, rfl⟩ := Option.map_eq_some_iff.mp hk
  obtain ⟨h1, h2⟩ := List.getElem?_eq_some_iff.mp hm
  rw [List.getElem_range] at h2
  subst h2
  simp [factorCall, Function.comp_def]

theorem swap_runs : ∃ E, calls factorOps (new 48000 2 4) swapCalls = .ok E :=
  C96_runs factorOps 4 2 48000 (by norm_num) _ _
    (healthy_of_total 4 48000 (fun s b => ⟨_, rfl⟩) (fun s r => ⟨_, rfl⟩)) swapProgram
    (fun m => calls_healthy_of_total _) swap_allowed (by
      intro m
      obtain ⟨t, ht⟩ := swap_upTo m
      have h4 : drops (upTo swapProgram 4) = 2 := by decide
      rw [← ht, drops_append] at h4
      omega) swapCalls swap_valid swap_calls

/-- The session succeeds, its signals are determined, and the fifth call is silent. -/
example : ∃ E es x sig, calls factorOps (new 48000 2 4) swapCalls = .ok E ∧ Happens 4 48000 swapProgram swapCalls es ∧
    Changing factorOps 2 48000 swapProgram swapCalls es x sig ∧
    (∀ x' sig', Changing factorOps 2 48000 swapProgram swapCalls es x' sig' →
      ∀ n c F, F < played swapProgram swapCalls → sig n c F = sig' n c F) ∧
    ∀ k E1 o E2, swapCalls[4]? = some k → calls factorOps (new 48000 2 4) (swapCalls.take 4) = .ok E1 →
        E1.process factorOps k.env k.commands k.input k.output = .ok (o, E2) →
        ∀ c f, c < k.output.channelCount → f < k.output.frameCount → o.sample? c f = some 0 := by
  obtain ⟨E, hE⟩ := swap_runs
  have hp : ∀ m, m < swapCalls.length → started (upTo swapProgram m) = true →
      Plain (made (upTo swapProgram m)) (holding (upTo swapProgram m)).links (input (upTo swapProgram m)) :=
    fun m hm _ => swap_plain m (by simpa [swapCalls] using hm)
  obtain ⟨es, x, sig, h1, h2, h3⟩ := C96_rewiring factorOps 4 2 48000 (by norm_num) swapProgram swap_allowed swap_unique
    swapCalls hp swap_valid swap_calls E hE
  refine ⟨E, es, x, sig, hE, h1, h2, fun x' sig' h' =>
    C96_determined factorOps 4 2 48000 swapProgram swap_allowed swapCalls es h1 x sig x' sig' h2 h', ?_⟩
  intro k E1 o E2 hk h5 h6 c f hc hf
  refine C96_dropped factorOps 4 2 48000 (by norm_num) swapProgram swap_allowed swap_unique swapCalls hp swap_valid
    swap_calls E hE 4 3 rfl ?_ k E1 o E2 hk h5 h6 c f hc hf
  rintro ⟨y, hy, hy3⟩
  rw [show (holding (upTo swapProgram 4)).nodes = [⟨1, 1, 1⟩, ⟨9, 1, 1⟩] from rfl] at hy
  simp only [List.mem_cons, List.not_mem_nil, or_false] at hy
  rcases hy with rfl | rfl <;> simp at hy3

/-- The input goes through node 1 to the output; before the second process call node 2 is put behind it. -/
noncomputable def insertProgram (s t : MixedNode) : Nat → List (ApiCall MixedNode MixedRequest)
  | 0 => [.create 1 2 2 s, .connectToInput ⟨1, 2⟩, .connectToOutput ⟨1, 2⟩, .start]
  | 1 => [.create 2 2 2 t, .connectTo ⟨1, 2⟩ ⟨2, 2⟩, .connectToOutput ⟨2, 2⟩,
      .change ⟨2, 2⟩ (.parameter (.change "gain" ⟨1 / 2, Timestamp.zero, .immediate⟩))]
  | _ => []

theorem insert_upTo (s t : MixedNode) (m : Nat) : upTo (insertProgram s t) (m + 1) = upTo (insertProgram s t) 1 := by
  induction m with
  | zero => rfl
  | succ m ih => rw [upTo_succ, ih]; rfl

theorem insert_allowed (s t : MixedNode) (m : Nat) :
    Allowed (fun h c => h.Typed c ∧ h.Careful 2 c) Holding.empty (upTo (insertProgram s t) m) := by
  have h1 : Allowed (fun h c => h.Typed c ∧ h.Careful 2 c) Holding.empty (upTo (insertProgram s t) 1) := by
    rw [upTo_succ, upTo_zero]
    simp only [insertProgram, List.cons_append, List.nil_append]
    refine ⟨⟨?_, ?_⟩, ⟨?_, trivial⟩, ⟨?_, trivial⟩, ⟨trivial, trivial⟩, ⟨?_, ?_⟩, ⟨?_, ?_, holding_acyclic_of_lt _ ?_⟩,
      ⟨?_, trivial⟩, ⟨?_, trivial⟩, trivial⟩
    all_goals simp [Holding.Typed, Holding.Careful, Holding.empty, Holding.after, Holding.Joined, Holding.Holds]
  cases m with
  | zero => rw [upTo_succ] at h1; exact allowed_prefix _ _ _ h1
  | succ m => rw [insert_upTo]; exact h1

/-- Two gain nodes, the second of which is made while the engine plays: the session succeeds, and the second makes of what
goes into it from the second process call on what a gain node makes of it. -/
example : ∃ s t E es x sig, calls (MixedNode.ops Fx.plain fun _ _ _ _ => (0, 0)) (new 44100 2 16)
      ((List.range 3).map fun m => Mixed.mixedCall (insertProgram s t m)) = .ok E ∧
    Changing (MixedNode.ops Fx.plain fun _ _ _ _ => (0, 0)) 2 44100 (insertProgram s t)
      ((List.range 3).map fun m => Mixed.mixedCall (insertProgram s t m)) es x sig ∧
    (NodeKind.effect (.gain 2)).Makes 44100 16 2 ((es.take 3).drop 1).flatten (later 8 (x 2)) (later 8 (sig 2)) := by
  obtain ⟨d, d1, d2, d3, d4⟩ := NodeKind.make_ok (sr := 44100) (mf := 16) (by norm_num) 1 (.effect (.gain 2)) (by trivial)
  obtain ⟨e, e1, e2, e3, e4⟩ := NodeKind.make_ok (sr := 44100) (mf := 16) (by norm_num) 2 (.effect (.gain 2)) (by trivial)
  obtain ⟨i, a, b, s⟩ := d
  obtain ⟨j, a', b', t⟩ := e
  dsimp only at d2 d3 d4 e2 e3 e4
  obtain rfl : a = 2 := d3
  obtain rfl : b = 2 := d4
  obtain rfl : a' = 2 := e3
  obtain rfl : b' = 2 := e4
  subst d2 e2
  have hmade0 : made (insertProgram s t 0) = [⟨1, 2, 2, s⟩] := rfl
  have hmade1 : made (insertProgram s t 1) = [⟨2, 2, 2, t⟩] := rfl
  have hreq0 : requests (insertProgram s t 0) = [] := rfl
  have hreq1 : requests (insertProgram s t 1) =
    [(2, .parameter (.change "gain" ⟨1 / 2, Timestamp.zero, .immediate⟩))] := rfl
  have hv : ∀ k ∈ (List.range 3).map fun m => Mixed.mixedCall (insertProgram s t m), k.Valid := by
    intro k hk
    obtain ⟨m, _, rfl⟩ := List.mem_map.mp hk
    exact Mixed.mixedCall_valid _
  have hc : Calls (insertProgram s t) ((List.range 3).map fun m => Mixed.mixedCall (insertProgram s t m)) := by
    intro i k hk
    rw [List.getElem?_map] at hk
    obtain ⟨m, hm, rfl⟩ := Option.map_eq_some_iff.mp hk
    obtain ⟨h1, h2⟩ := List.getElem?_eq_some_iff.mp hm
    rw [List.getElem_range] at h2
    subst h2
    simp [Mixed.mixedCall, Function.comp_def]
  have hu : Unique (insertProgram s t) := by
    intro m
    cases m with
    | zero => simp [upTo_zero, hmade0]
    | succ m =>
      rw [insert_upTo, upTo_succ, upTo_zero, made_append, hmade0, hmade1]
      simp
  have hp : ∀ m, Plain (made (upTo (insertProgram s t) m)) (holding (upTo (insertProgram s t) m)).links
      (input (upTo (insertProgram s t) m)) := by
    intro m
    cases m with
    | zero => exact ⟨by simp [upTo_zero, insertProgram, holding, Holding.afterAll, Holding.after, Holding.empty],
        by simp [upTo_zero, insertProgram, holding, Holding.afterAll, Holding.after, Holding.empty]⟩
    | succ m =>
      rw [insert_upTo, upTo_succ, upTo_zero, made_append, hmade0, hmade1]
      exact ⟨by simp [insertProgram, holding, Holding.afterAll, Holding.after, Holding.empty, input],
        by simp [insertProgram, holding, Holding.afterAll, Holding.after, Holding.empty]⟩
  obtain ⟨E, hE⟩ := C96_mixed_runs (N := Fx.plain) (al := fun _ _ _ _ => (0, 0)) (by simp [Fx.plain]) (by simp [Fx.plain]) 16 2
    44100 (by norm_num) (by norm_num) (by norm_num) (by norm_num) (insertProgram s t)
    [(1, .effect (.gain 2)), (2, .effect (.gain 2))] (by
      intro q hq
      simp only [List.mem_cons, List.not_mem_nil, or_false] at hq
      rcases hq with rfl | rfl <;> exact ⟨trivial, trivial⟩) (by
      intro m d hd
      match m with
      | 0 => rw [hmade0, List.mem_singleton] at hd; subst hd; exact ⟨_, .head _, d1⟩
      | 1 => rw [hmade1, List.mem_singleton] at hd; subst hd; exact ⟨_, .tail _ (.head _), e1⟩
      | m + 2 => cases hd) (by
      intro m x hx k hk
      match m with
      | 0 => cases hx
      | 1 =>
        rw [hreq1, List.mem_singleton] at hx
        subst hx
        simp at hk
        subst hk
        simp [NodeKind.Allows, ParameterRequest.name, FxKind.names]
      | m + 2 => cases hx) (insert_allowed s t) (by
      intro m
      cases m with
      | zero => exact Nat.zero_le _
      | succ m => rw [insert_upTo]; exact Nat.zero_le _) _ hv hc
  obtain ⟨es, x, sig, h1, h2, _⟩ := C96_rewiring _ 16 2 44100 (by norm_num) _ (insert_allowed s t) hu _
    (fun m _ _ => hp m) hv hc E hE
  refine ⟨s, t, E, es, x, sig, hE, h2, ?_⟩
  have := C96_mixed (by simp [Fx.plain]) (by simp [Fx.plain]) 16 2 44100 (by norm_num) (by norm_num) (by norm_num)
    (by norm_num) (insertProgram s t) (by
      intro m x hx
      match m with
      | 0 => cases hx
      | 1 => rw [hreq1, List.mem_singleton] at hx; subst hx; trivial
      | m + 2 => cases hx) _ es x sig h1 h2 1 2 (by norm_num) (by simp) 2 (.effect (.gain 2)) (by trivial) ⟨2, 2, 2, t⟩ e1
      (by rw [hmade1]; exact .head _)
      ⟨⟨2, 2, 2⟩, by simp [insert_upTo, upTo_succ, upTo_zero, insertProgram, holding, Holding.afterAll, Holding.after,
        Holding.empty], rfl⟩
  have p1 : ∀ m, started (upTo (insertProgram s t) m) = true := by
    intro m
    cases m with
    | zero => rfl
    | succ m => rw [insert_upTo]; rfl
  simpa [played, p1, List.range_succ, Mixed.mixedCall, Buf.frameCount] using this

end Network
end Rawdio
