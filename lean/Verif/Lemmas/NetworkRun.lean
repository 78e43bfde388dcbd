import Verif.Lemmas.Network

/-! Helper lemmas about everything that nodes connected in any way play in a session. -/

namespace Rawdio
namespace Network

open Processor Chain

variable {S P C : Type}

theorem links_held (program : List (ApiCall P C)) : (∀ c ∈ program, c.Builds) →
    Allowed Holding.Typed Holding.empty program → ∀ l ∈ links program, l.src ∈ (made program).map Dsp.id := by
  induction program using List.reverseRecOn with
  | nil => intro _ _ x hx; cases hx
  | append_singleton program c ih =>
    intro hb ht l hl
    rw [allowed_append] at ht
    rw [links_append, List.mem_append] at hl
    rw [made_append, List.map_append, List.mem_append]
    rcases hl with hl | hl
    · exact .inl (ih (fun x hx => hb x (by simp [hx])) ht.1 l hl)
    · have hH := holding_of_builds program fun x hx => hb x (by simp [hx])
      have key : ∀ node, (Holding.empty.afterAll program).Holds node → node.id ∈ (made program).map Dsp.id := by
        intro node hnode
        obtain ⟨y, hy, hy2, _⟩ := hnode
        rw [hH] at hy
        obtain ⟨d, hd, rfl⟩ := List.mem_map.mp hy
        rw [← hy2]
        exact List.mem_map_of_mem hd
      cases c with
      | connectTo a b =>
        have hl : l = ⟨a.id, b.id, 0, 0, a.outputCount⟩ := by simpa [links] using hl
        subst hl
        exact .inl (key a ht.2.1.1)
      | connectChannelsTo a b s d n =>
        have hl : l = ⟨a.id, b.id, s, d, n⟩ := by simpa [links] using hl
        subst hl
        exact .inl (key a ht.2.1.1)
      | _ => simp [links] at hl

/-- What is known of an engine that plays the network of a program. -/
structure Going (program : List (ApiCall P C)) (F : Nat) (V : View P) : Prop where
  nodes : V.patch.nodes = (made program).map Dsp.id
  links : V.patch.conns.map Conn.link = links program
  fromSystem : V.fromSystem = input program
  toSystem : V.toSystem = output program
  node : ∀ d ∈ made program, ∃ e, V.node d.id = some e ∧ shape e = shape d
  none : ∀ i, i ∉ (made program).map Dsp.id → V.node i = none
  running : V.running = true
  frames : V.frames = F

theorem effects_join {ops : NodeOps S P C} {V W X : View P} {as bs : List (Command P C)}
    (h : Command.Effects ops V as W) (g : Command.Effects ops W bs X) : Command.Effects ops V (as ++ bs) X := by
  induction h with
  | nil V => exact g
  | cons h1 _ ih => exact .cons h1 (ih g)

/-- One process call. -/
theorem step_network [AddZeroClass S] {ops : NodeOps S P C} {mf mc sr F : Nat} (hm : 0 < mf)
    {program : List (ApiCall P C)} (hb : ∀ c ∈ program, c.Builds) (ht : Allowed Holding.Typed Holding.empty program)
    (hs : .start ∈ program) (hp : Plain (made program) (links program) (input program))
    {V W : View P} {first : Bool} {before as : List (ApiCall P C)}
    (hV : if first then Command.Effects ops View.empty (before.map ApiCall.command) V ∧ F = 0 else Going program F V)
    (ha : if first then before ++ as = program else before = [] ∧ ∀ c ∈ as, c.Requests)
    {k : Rawdio.Call S P C} (hk : k.commands.map Prod.fst = as.map ApiCall.command)
    {out : Nat → Nat → Option S} (h : View.Call ops mf mc sr V k out W) :
    ∃ bs Y, BlocksOf mf sr F k.output.frameCount bs ∧ Going program (F + k.output.frameCount) W ∧
      (∀ d ∈ made program, ∃ e e', (if first then e = d else V.node d.id = some e) ∧ W.node d.id = some e' ∧
        chainRun ops sr [e] ((requests (before ++ as)).map (fun x => .change x.1 x.2) ++ bs.map fun b => .block b.1 b.2)
          (arriving (links program) (input program) (callInput true mc k.input) Y d.id) = .ok (Y d.id, [e']) ∧
        ∀ c f, d.outputCount ≤ c → Y d.id c f = 0) ∧
      ∀ c f, c < k.output.channelCount → f < k.output.frameCount → 
        out c f = some (heardFrom (output program) ((made program).map Dsp.id) mc Y c f) := by
  have key : ∀ U, Command.Effects ops V (k.commands.map Prod.fst) U → Going program F U ∧
      ∀ d ∈ made program, ∃ e e1, (if first then e = d else V.node d.id = some e) ∧ U.node d.id = some e1 ∧
        Turns ops (requests (before ++ as)) e e1 := by
    intro U hU
    rw [hk] at hU
    cases first with
    | true =>
      obtain ⟨hV1, rfl⟩ : Command.Effects ops View.empty (before.map ApiCall.command) V ∧ F = 0 := by simpa using hV
      obtain rfl : before ++ as = program := by simpa using ha
      have hU := effects_join hV1 hU
      rw [← List.map_append] at hU
      have B := effects_built _ hb ht hU
      refine ⟨⟨B.nodes, B.links, B.fromSystem, B.toSystem, ?_, B.none, B.running.mpr hs, B.frames⟩, ?_⟩
      · intro d hd
        obtain ⟨e, e1, e2⟩ := B.node d hd
        exact ⟨e, e1, e2.1⟩
      · intro d hd
        obtain ⟨e, e1, e2⟩ := B.node d hd
        exact ⟨d, e, by simp, e1, e2⟩
    | false =>
      have G : Going program F V := by simpa using hV
      obtain ⟨rfl, ha1⟩ : before = [] ∧ ∀ c ∈ as, c.Requests := by simpa using ha
      have hds : ∀ e ∈ (made program).filterMap fun d => V.node d.id, V.node e.id = some e := by
        intro e he
        obtain ⟨d, hd, he⟩ := List.mem_filterMap.mp he
        obtain ⟨e0, g1, g2⟩ := G.node d hd
        obtain rfl : e0 = e := by rw [g1] at he; injection he
        rw [show e0.id = d.id from congrArg Prod.fst g2]
        exact g1
      obtain ⟨a1, a2, a3, a4, a5, a6, a7⟩ := changes_effect
        (ds := (made program).filterMap fun d => V.node d.id) (cs := []) as ha1
        (fun e he => ⟨e, hds e he, Turns.nil e⟩) (fun i hi => by
          refine G.none i fun hi' => hi ?_
          obtain ⟨d, hd, rfl⟩ := List.mem_map.mp hi'
          obtain ⟨e0, g1, g2⟩ := G.node d hd
          rw [← show e0.id = d.id from congrArg Prod.fst g2]
          exact List.mem_map_of_mem (List.mem_filterMap.mpr ⟨d, hd, g1⟩)) hU
      have hnode : ∀ d ∈ made program, ∃ e e1, V.node d.id = some e ∧ U.node d.id = some e1 ∧ shape e = shape d ∧
          Turns ops (requests as) e e1 := by
        intro d hd
        obtain ⟨e, g1, g2⟩ := G.node d hd
        obtain ⟨e1, g3, g4⟩ := a6 e (List.mem_filterMap.mpr ⟨d, hd, g1⟩)
        rw [show e.id = d.id from congrArg Prod.fst g2] at g3
        exact ⟨e, e1, g1, g3, g2, by simpa using g4⟩
      refine ⟨⟨by rw [a1]; exact G.nodes, by rw [a1]; exact G.links, a2.trans G.fromSystem, a3.trans G.toSystem, ?_, ?_,
        a4.trans G.running, a5.trans G.frames⟩, ?_⟩
      · intro d hd
        obtain ⟨e, e1, g1, g2, g3, g4⟩ := hnode d hd
        exact ⟨e1, g2, g4.1.trans g3⟩
      · intro i hi
        refine a7 i fun hi' => hi ?_
        obtain ⟨e, he, rfl⟩ := List.mem_map.mp hi'
        obtain ⟨d, hd, he⟩ := List.mem_filterMap.mp he
        obtain ⟨e0, g1, g2⟩ := G.node d hd
        obtain rfl : e0 = e := by rw [g1] at he; injection he
        rw [show e0.id = d.id from congrArg Prod.fst g2]
        exact List.mem_map_of_mem hd
      · intro d hd
        obtain ⟨e, e1, g1, g2, g3, g4⟩ := hnode d hd
        exact ⟨e, e1, by simpa using g1, g2, g4⟩
  cases h with
  | stopped _ _ _ e1 e2 _ =>
    rw [(key _ e1).1.running] at e2
    cases e2
  | running W' _ now node _ e1 e2 e3 e4 =>
    obtain ⟨G, gs⟩ := key _ e1
    obtain ⟨tiles, Y, t1, t2, t3, t4⟩ := network_call hm e4 (Nat.zero_le _) (fun n hn => by
      rw [G.nodes] at hn
      obtain ⟨d, hd, rfl⟩ := List.mem_map.mp hn
      obtain ⟨e, h1, _⟩ := G.node d hd
      exact ⟨e, h1⟩)
    have hl0 : later 0 (callInput true mc k.input) = callInput true mc k.input := by funext c f; simp [later]
    rw [G.frames] at e3
    rw [G.nodes, G.fromSystem, hl0] at t2
    rw [G.nodes] at t3
    rw [G.nodes, G.toSystem] at t4
    have hY : ∀ d ∈ made program, ∀ c f, d.outputCount ≤ c → Y d.id c f = 0 := by
      intro d hd c f hc
      obtain ⟨e, e', h1, h2, h3, h4, h5⟩ := t2 d.id (List.mem_map_of_mem hd)
      obtain ⟨e0, g1, g2⟩ := G.node d hd
      obtain rfl : e0 = e := by rw [g1] at h1; injection h1
      exact h5 c f (by rw [show e0.outputCount = d.outputCount from congrArg (fun x => x.2.2) g2]; exact hc)
    have hrec : ∀ n, W'.patch.received (system (input program) (callInput true mc k.input)) Y n =
        arriving (links program) (input program) (callInput true mc k.input) Y n := by
      intro n
      funext c f
      exact received_arriving G.links hp (links_held program hb ht) hY n c f
    refine ⟨_, Y, ⟨now, tiles, e3, t1, rfl⟩, ⟨G.nodes, G.links, G.fromSystem, G.toSystem, ?_, ?_, G.running, ?_⟩, ?_, ?_⟩
    · intro d hd
      obtain ⟨e, e', h1, h2, h3, h4, h5⟩ := t2 d.id (List.mem_map_of_mem hd)
      obtain ⟨e0, g1, g2⟩ := G.node d hd
      obtain rfl : e0 = e := by rw [g1] at h1; injection h1
      exact ⟨e', h2, h3.trans g2⟩
    · intro i hi
      exact t3 i hi (G.none i hi)
    · simp only [G.frames]
    · intro d hd
      obtain ⟨e, e', h1, h2, h3, h4, h5⟩ := t2 d.id (List.mem_map_of_mem hd)
      obtain ⟨e0, e1, g1, g2, g3⟩ := gs d hd
      obtain rfl : e1 = e := by rw [g2] at h1; injection h1
      refine ⟨e0, e', g1, h2, ?_, hY d hd⟩
      rw [g3.2, List.map_map, ← hrec]
      exact h4
    · intro c f hc hf
      rw [t4 c f hc (Nat.zero_le _) hf, Nat.sub_zero]

theorem arriving_congr [Zero S] [Add S] {ls : List Link} {inp : Option Id} {x x' : Nat → Nat → S} {Y Y' : Signals S}
    {n : Id} {c f f' : Nat} (h1 : x c f = x' c f') (h2 : ∀ n c, Y n c f = Y' n c f') :
    arriving ls inp x Y n c f = arriving ls inp x' Y' n c f' := by
  unfold arriving Link.brings
  simp only [h1, h2]

theorem heardFrom_congr [Zero S] {ts : Option Id} {nodes : List Id} {mc c f f' : Nat} {Y Y' : Signals S}
    (h : ∀ n, Y n c f = Y' n c f') : heardFrom ts nodes mc Y c f = heardFrom ts nodes mc Y' c f' := by
  unfold heardFrom
  simp only [h]

theorem calls_prefix {program : Nat → List (ApiCall P C)} {ks ls : List (Call S P C)}
    (hp : Calls program (ks ++ ls)) : Calls program ks := by
  intro i k' hk'
  refine hp i k' ?_
  rw [List.getElem?_append_left (by by_contra hn; rw [List.getElem?_eq_none (by omega)] at hk'; cases hk')]
  exact hk'

/-- The whole session. -/
theorem session_network [AddZeroClass S] {ops : NodeOps S P C} {mf mc sr : Nat} (hm : 0 < mf)
    {program : Nat → List (ApiCall P C)} (hP : Program program)
    (hp : Plain (made (program 0)) (links (program 0)) (input (program 0)))
    {before rest : List (ApiCall P C)} (hbr : program 0 = before ++ rest) {E0 : Processor S P} {V0 : View P}
    (hE0 : EInv ops mf mc sr E0) (hL0 : Looks E0 mf mc sr V0)
    (hV0 : Command.Effects ops View.empty (before.map ApiCall.command) V0) (ks : List (Call S P C)) :
    ∀ E : Processor S P, (∀ k ∈ ks, k.Valid) → Calls (fun i => if i = 0 then rest else program i) ks →
    calls ops E0 ks = .ok E →
    ∃ V es Y, Looks E mf mc sr V ∧ EInv ops mf mc sr E ∧
      ChainHistory mf sr (fun i => requests (program i)) ks es ∧
      (if ks.length = 0 then V = V0 else Going (program 0) (framesIn ks) V) ∧
      (∀ d ∈ made (program 0), ∃ e, (if ks.length = 0 then e = d else V.node d.id = some e) ∧
        chainRun ops sr [d] es (arriving (links (program 0)) (input (program 0)) (sessionInput true mc ks) Y d.id) =
          .ok (Y d.id, [e]) ∧ ∀ c f, d.outputCount ≤ c → Y d.id c f = 0) ∧
      ∀ i k E1 o E2, ks[i]? = some k → calls ops E0 (ks.take i) = .ok E1 →
        E1.process ops k.env k.commands k.input k.output = .ok (o, E2) →
        ∀ c f, c < k.output.channelCount → f < k.output.frameCount → o.sample? c f =
          some (heardFrom (output (program 0)) ((made (program 0)).map Dsp.id) mc Y c (framesIn (ks.take i) + f)) := by
  induction ks using List.reverseRecOn with
  | nil =>
    intro E _ _ h
    injection h with h
    subst h
    exact ⟨_, [], fun _ => silence, hL0, hE0, .nil, by simp,
      fun d _ => ⟨d, by simp, rfl, fun _ _ _ => rfl⟩, by simp⟩
  | append_singleton ks k ih =>
    intro E hk hc h
    obtain ⟨E1, h1, h2⟩ := (calls_append _ _ _ _).mp h
    obtain ⟨V, es, Y, i1, i2, i3, i4, i5, i6⟩ := ih E1 (fun l hl => hk l (by simp [hl])) (calls_prefix hc) h1
    obtain ⟨o, E2, h3, h4⟩ := calls_cons h2
    injection h4 with h4
    subst h4
    obtain ⟨W, w1, w2, w3, w4⟩ := process_looks hm i2 i1 (hk k (by simp)) h3
    obtain ⟨bs, Z, b1, b2, b3, b4⟩ := step_network (F := framesIn ks) (first := ks.length == 0) hm hP.builds hP.typed
      hP.starts hp (V := V) (before := if ks.length = 0 then before else [])
      (as := if ks.length = 0 then rest else program ks.length) (by
        by_cases h0 : ks.length = 0
        · rw [if_pos h0] at i4
          obtain rfl := List.length_eq_zero_iff.mp h0
          subst i4
          simpa [framesIn] using hV0
        · rw [if_neg h0] at i4
          rwa [if_neg (by simpa using h0)]) (by
        by_cases h0 : ks.length = 0
        · rw [if_pos (by simpa using h0), if_pos h0, if_pos h0, hbr]
        · rw [if_neg (by simpa using h0), if_neg h0, if_neg h0]
          exact ⟨rfl, hP.requests _ (by omega)⟩) (hc ks.length k (by simp)) w1
    have has : (if ks.length = 0 then before else []) ++ (if ks.length = 0 then rest else program ks.length) =
        program ks.length := by
      by_cases h0 : ks.length = 0
      · rw [if_pos h0, if_pos h0, h0, hbr]
      · rw [if_neg h0, if_neg h0]; rfl
    rw [has] at b3
    have hH := ChainHistory.snoc k bs i3 b1
    rw [List.append_assoc] at hH
    have htot := history_total i3
    have htot' := history_total hH
    rw [Gain.framesIn_append] at htot'
    have hk' : ChainEvent.total ((requests (program ks.length)).map (fun x => (.change x.1 x.2 : ChainEvent C)) ++
        bs.map fun b => .block b.1 b.2) = k.output.frameCount := by
      simp only [ChainEvent.total, List.map_append, List.sum_append] at *
      omega
    refine ⟨W, _, fun n => followed (framesIn ks) (Y n) (Z n), w2, w3, hH, ?_, ?_, ?_⟩
    · rw [if_neg (by simp), Gain.framesIn_append]
      exact b2
    · intro d hd
      obtain ⟨e, g1, g2, g3⟩ := i5 d hd
      obtain ⟨e0, e', r1, r2, r3, r4⟩ := b3 d hd
      obtain rfl : e = e0 := by
        by_cases h0 : ks.length = 0
        · rw [if_pos h0] at g1
          rw [if_pos (by simpa using h0)] at r1
          exact g1.trans r1.symm
        · rw [if_neg h0] at g1
          rw [if_neg (by simpa using h0), g1] at r1
          injection r1
      refine ⟨e', by rw [if_neg (by simp)]; exact r2, ?_, ?_⟩
      · rw [chainRun_append, chainRun_congr es (by simp)
          (y := arriving (links (program 0)) (input (program 0)) (sessionInput true mc ks) Y d.id), ok_bind g2,
          chainRun_congr _ (by simp)
          (y := arriving (links (program 0)) (input (program 0)) (callInput true mc k.input) Z d.id), ok_bind r3, htot]
        · rfl
        · intro c f hf
          rw [later, htot]
          apply arriving_congr
          · rw [sessionInput_append]
            simp only [followed]
            rw [if_neg (by omega), Nat.add_sub_cancel_left, if_pos (by omega)]
          · intro n c
            simp only [followed]
            rw [if_neg (by omega), Nat.add_sub_cancel_left]
        · intro c f hf
          apply arriving_congr
          · rw [sessionInput_append]
            simp only [followed]
            rw [if_pos (by omega)]
          · intro n c
            simp only [followed]
            rw [if_pos (by omega)]
      · intro c f hc
        simp only [followed]
        split
        · exact g3 c f hc
        · exact r4 c _ hc
    · intro i k' F1 o' F2 hk' hF ho c f hc hf
      rcases Nat.lt_trichotomy i ks.length with hi | hi | hi
      · rw [List.getElem?_append_left hi] at hk'
        rw [List.take_append_of_le_length hi.le] at hF ⊢
        rw [i6 i k' F1 o' F2 hk' hF ho c f hc hf]
        have hlt : framesIn (ks.take i) + f < framesIn ks := by
          have e : ks = ks.take i ++ k' :: ks.drop (i + 1) := by
            conv_lhs => rw [← List.take_append_drop i ks]
            rw [List.drop_eq_getElem_cons hi]
            rw [List.getElem?_eq_getElem hi] at hk'
            injection hk' with hk'
            rw [hk']
          conv_rhs => rw [e]
          simp only [framesIn, List.map_append, List.sum_append, List.map_cons, List.sum_cons]
          omega
        refine congrArg some (heardFrom_congr fun n => ?_)
        simp only [followed]
        rw [if_pos hlt]
      · subst hi
        rw [List.getElem?_append_right (le_refl _), Nat.sub_self] at hk'
        injection hk' with hk'
        subst hk'
        rw [List.take_append_of_le_length (le_refl _), List.take_length] at hF ⊢
        rw [h1] at hF
        injection hF with hF
        subst hF
        rw [h3] at ho
        injection ho with ho
        injection ho with ho1 ho2
        subst ho1
        rw [b4 c f hc hf]
        refine congrArg some (heardFrom_congr fun n => ?_)
        simp only [followed]
        rw [if_neg (by omega : ¬ framesIn ks + f < framesIn ks), Nat.add_sub_cancel_left]
      · rw [List.getElem?_eq_none (by simp; omega)] at hk'
        cases hk'

/-- A command other than `Start` does not start the engine. -/
theorem effects_waiting {ops : NodeOps S P C} {V W : View P} {cs : List (Command P C)} (h : Command.Effects ops V cs W) :
    (∀ c ∈ cs, c ≠ .start) → V.running = false → W.running = false := by
  induction h with
  | nil V => intro _ h; exact h
  | @cons V W X c cs h1 _ ih =>
    intro hc hV
    apply ih (fun c hc' => hc c (by simp [hc']))
    have := hc c (by simp)
    cases h1 <;> first | exact hV | rfl | exact absurd rfl this

/-- An engine that has not been started. -/
theorem session_waiting [AddZeroClass S] {ops : NodeOps S P C} {mf mc sr : Nat} (hm : 0 < mf) (ks : List (Call S P C)) :
    ∀ E : Processor S P, (∀ k ∈ ks, k.Valid) → (∀ c ∈ history ks, c ≠ .start) → calls ops (new sr mc mf) ks = .ok E →
    ∃ V, Looks E mf mc sr V ∧ EInv ops mf mc sr E ∧ Command.Effects ops View.empty (history ks) V ∧ V.running = false ∧
      ∀ i k E1 o E2, ks[i]? = some k → calls ops (new sr mc mf) (ks.take i) = .ok E1 →
        E1.process ops k.env k.commands k.input k.output = .ok (o, E2) →
        ∀ c f, c < k.output.channelCount → f < k.output.frameCount → o.sample? c f = some 0 := by
  induction ks using List.reverseRecOn with
  | nil =>
    intro E _ _ h
    injection h with h
    subst h
    exact ⟨_, looks_new .., einv_new .., .nil _, rfl, by simp⟩
  | append_singleton ks k ih =>
    intro E hk hs h
    obtain ⟨E1, h1, h2⟩ := (calls_append _ _ _ _).mp h
    have hh : history (ks ++ [k]) = history ks ++ k.commands.map Prod.fst := by simp [history]
    rw [hh] at hs
    obtain ⟨V, i1, i2, i3, i4, i5⟩ := ih E1 (fun l hl => hk l (by simp [hl])) (fun c hc => hs c (by simp [hc])) h1
    obtain ⟨o, E2, h3, h4⟩ := calls_cons h2
    injection h4 with h4
    subst h4
    obtain ⟨W, w1, w2, w3, w4⟩ := process_looks hm i2 i1 (hk k (by simp)) h3
    cases w1 with
    | running W' _ now node _ e1 e2 e3 e4 =>
      have := effects_waiting e1 (fun c hc => hs c (by simp only [List.mem_append]; exact .inr hc)) i4
      rw [this] at e2
      cases e2
    | stopped _ _ _ e1 e2 e3 =>
      refine ⟨W, w2, w3, by rw [hh]; exact effects_join i3 e1, e2, ?_⟩
      intro i k' F1 o' F2 hk' hF ho c f hc hf
      rcases Nat.lt_trichotomy i ks.length with hi | hi | hi
      · rw [List.getElem?_append_left hi] at hk'
        rw [List.take_append_of_le_length hi.le] at hF
        exact i5 i k' F1 o' F2 hk' hF ho c f hc hf
      · subst hi
        rw [List.getElem?_append_right (le_refl _), Nat.sub_self] at hk'
        injection hk' with hk'
        subst hk'
        rw [List.take_append_of_le_length (le_refl _), List.take_length] at hF
        rw [h1] at hF
        injection hF with hF
        subst hF
        rw [h3] at ho
        injection ho with ho
        injection ho with ho1 ho2
        subst ho1
        rw [e3 c f, if_pos ⟨hc, hf⟩]
      · rw [List.getElem?_eq_none (by simp; omega)] at hk'
        cases hk'

theorem output_held (program : List (ApiCall P C)) : (∀ c ∈ program, c.Builds) →
    Allowed Holding.Typed Holding.empty program → ∀ n, output program = some n → n ∈ (made program).map Dsp.id := by
  induction program using List.reverseRecOn with
  | nil => intro _ _ x hx; cases hx
  | append_singleton program c ih =>
    intro hb ht n hn
    rw [allowed_append] at ht
    rw [made_append, List.map_append, List.mem_append]
    have hH := holding_of_builds program fun x hx => hb x (by simp [hx])
    have ih := ih (fun x hx => hb x (by simp [hx])) ht.1
    by_cases hc : ∃ a, c = .connectToOutput a
    · obtain ⟨a, rfl⟩ := hc
      have : output (program ++ [(.connectToOutput a : ApiCall P C)]) = some a.id := by simp [output]
      rw [this] at hn
      injection hn with hn
      subst hn
      obtain ⟨y, hy, hy2, _⟩ := ht.2.1
      rw [hH] at hy
      obtain ⟨d, hd, rfl⟩ := List.mem_map.mp hy
      rw [← hy2]
      exact .inl (List.mem_map_of_mem hd)
    · rw [output_snoc _ _ (by rintro a rfl; exact hc ⟨a, rfl⟩)] at hn
      exact .inl (ih n hn)

end Network
end Rawdio
