import Verif.Spec.Network
import Verif.Lemmas.Chain
import Verif.Lemmas.Client
import Verif.Lemmas.ChainSession

/-! Helper lemmas about nodes connected in any way. -/

namespace Rawdio
namespace Network

open Processor Chain

variable {S P C : Type}

/-! ## Building -/

/-- A node after some requests. -/
def Turns [Zero S] (ops : NodeOps S P C) (cs : List (Id × C)) (d d' : Dsp P) : Prop :=
  shape d' = shape d ∧ ∀ sr es x,
    chainRun ops sr [d] (cs.map (fun x => .change x.1 x.2) ++ es) x = chainRun ops sr [d'] es x

theorem Turns.nil [Zero S] {ops : NodeOps S P C} (d : Dsp P) : Turns ops [] d d := ⟨rfl, fun _ _ _ => rfl⟩

theorem Turns.append [Zero S] {ops : NodeOps S P C} {as bs : List (Id × C)} {d e f : Dsp P} (h : Turns ops as d e)
    (g : Turns ops bs e f) : Turns ops (as ++ bs) d f := by
  refine ⟨g.1.trans h.1, fun sr es x => ?_⟩
  rw [List.map_append, List.append_assoc, h.2, g.2]

theorem Turns.other [Zero S] {ops : NodeOps S P C} {d : Dsp P} {i : Id} {c : C} (h : d.id ≠ i) :
    Turns ops [(i, c)] d d := by
  refine ⟨rfl, fun sr es x => ?_⟩
  simp only [List.map_cons, List.map_nil, List.cons_append, List.nil_append]
  rw [chainRun, chainChange]
  simp only [List.mapM_cons, List.mapM_nil, if_neg h]
  rfl

theorem Turns.own [Zero S] {ops : NodeOps S P C} {d : Dsp P} {c : C} {s : P} (h : ops.change d.state c = .ok s) :
    Turns ops [(d.id, c)] d { d with state := s } := by
  refine ⟨rfl, fun sr es x => ?_⟩
  simp only [List.map_cons, List.map_nil, List.cons_append, List.nil_append]
  rw [chainRun, chainChange]
  simp only [List.mapM_cons, List.mapM_nil, if_true, h]
  rfl

/-- What is known of an engine that has the network of a program, after requests that turn its nodes into others. -/
structure Built [Zero S] (ops : NodeOps S P C) (program : List (ApiCall P C)) (cs : List (Id × C)) (V : View P) : Prop where
  nodes : V.patch.nodes = (made program).map Dsp.id
  nodup : ((made program).map Dsp.id).Nodup
  links : V.patch.conns.map Conn.link = links program
  fromSystem : V.fromSystem = input program
  toSystem : V.toSystem = output program
  node : ∀ d ∈ made program, ∃ d', V.node d.id = some d' ∧ Turns ops cs d d'
  none : ∀ i, i ∉ (made program).map Dsp.id → V.node i = none
  running : V.running = true ↔ ApiCall.start ∈ program
  frames : V.frames = 0

theorem holding_of_builds (program : List (ApiCall P C)) : (∀ c ∈ program, c.Builds) →
    (Holding.empty.afterAll program).nodes = (made program).map fun d => ⟨d.id, d.inputCount, d.outputCount⟩ := by
  induction program using List.reverseRecOn with
  | nil => intro _; rfl
  | append_singleton program c ih =>
    intro hb
    have ih := ih fun x hx => hb x (by simp [hx])
    have hc := hb c (by simp)
    rw [Holding.afterAll, List.foldl_append]
    rw [Holding.afterAll] at ih
    cases c <;> simp_all [made, Holding.after, ApiCall.Builds]

/-- One more request. -/
theorem change_effect [Zero S] {ops : NodeOps S P C} {V W : View P} {ds : List (Dsp P)} {cs : List (Id × C)} {i : Id} {c : C}
    (hn : ∀ d ∈ ds, ∃ d', V.node d.id = some d' ∧ Turns ops cs d d')
    (hi : ∀ i, i ∉ ds.map Dsp.id → V.node i = none)
    (h : Command.Effect ops V (.change i c) W) : W.patch = V.patch ∧ W.fromSystem = V.fromSystem ∧
      W.toSystem = V.toSystem ∧ W.running = V.running ∧ W.frames = V.frames ∧
      (∀ d ∈ ds, ∃ d', W.node d.id = some d' ∧ Turns ops (cs ++ [(i, c)]) d d') ∧
      ∀ i, i ∉ ds.map Dsp.id → W.node i = none := by
  cases h with
  | change _ _ e s e1 e2 =>
    refine ⟨rfl, rfl, rfl, rfl, rfl, ?_, ?_⟩
    · intro d hd
      obtain ⟨d', h1, h2⟩ := hn d hd
      have hid : d'.id = d.id := congrArg Prod.fst h2.1
      by_cases hdi : d.id = i
      · subst hdi
        obtain rfl : d' = e := by rw [h1] at e1; injection e1
        refine ⟨{ d' with state := s }, by simp, h2.append ?_⟩
        rw [← hid]
        exact Turns.own e2
      · exact ⟨d', by simp only [if_neg hdi]; exact h1, h2.append (Turns.other (by rw [hid]; exact hdi))⟩
    · intro j hj
      have : j ≠ i := by
        rintro rfl
        rw [hi _ hj] at e1
        cases e1
      simp only [if_neg this]
      exact hi j hj
  | changeAbsent _ _ e1 =>
    refine ⟨rfl, rfl, rfl, rfl, rfl, ?_, hi⟩
    intro d hd
    obtain ⟨d', h1, h2⟩ := hn d hd
    have hid : d'.id = d.id := congrArg Prod.fst h2.1
    refine ⟨d', h1, h2.append (Turns.other ?_)⟩
    rintro rfl
    rw [hid] at e1
    rw [h1] at e1
    cases e1

theorem changes_effect [Zero S] {ops : NodeOps S P C} {ds : List (Dsp P)} (as : List (ApiCall P C)) :
    ∀ {V W : View P} {cs : List (Id × C)}, (∀ c ∈ as, c.Requests) →
    (∀ d ∈ ds, ∃ d', V.node d.id = some d' ∧ Turns ops cs d d') →
    (∀ i, i ∉ ds.map Dsp.id → V.node i = none) →
    Command.Effects ops V (as.map ApiCall.command) W → W.patch = V.patch ∧ W.fromSystem = V.fromSystem ∧
      W.toSystem = V.toSystem ∧ W.running = V.running ∧ W.frames = V.frames ∧
      (∀ d ∈ ds, ∃ d', W.node d.id = some d' ∧ Turns ops (cs ++ requests as) d d') ∧
      ∀ i, i ∉ ds.map Dsp.id → W.node i = none := by
  induction as with
  | nil =>
    intro V W cs _ hn hi h
    cases h
    exact ⟨rfl, rfl, rfl, rfl, rfl, by simpa [requests] using hn, hi⟩
  | cons a as ih =>
    intro V W cs hr hn hi h
    cases h with
    | cons h1 h2 =>
      have ha := hr a (by simp)
      cases a <;> try exact ha.elim
      rename_i node r
      obtain ⟨a1, a2, a3, a4, a5, a6, a7⟩ := change_effect hn hi h1
      obtain ⟨b1, b2, b3, b4, b5, b6, b7⟩ := ih (fun c hc => hr c (by simp [hc])) a6 a7 h2
      refine ⟨b1.trans a1, b2.trans a2, b3.trans a3, b4.trans a4, b5.trans a5, ?_, b7⟩
      intro d hd
      obtain ⟨d', g1, g2⟩ := b6 d hd
      exact ⟨d', g1, by simpa [requests] using g2⟩

theorem Turns.none [Zero S] {ops : NodeOps S P C} {d : Dsp P} (cs : List (Id × C)) (h : ∀ x ∈ cs, x.1 ≠ d.id) :
    Turns ops cs d d := by
  induction cs with
  | nil => exact Turns.nil d
  | cons c cs ih =>
    exact (Turns.other (c := c.2) fun e => h c (by simp) e.symm).append (ih fun x hx => h x (by simp [hx]))

theorem made_append (as bs : List (ApiCall P C)) : made (as ++ bs) = made as ++ made bs := List.filterMap_append
theorem requests_append (as bs : List (ApiCall P C)) : requests (as ++ bs) = requests as ++ requests bs :=
  List.filterMap_append
theorem links_append (as bs : List (ApiCall P C)) : links (as ++ bs) = links as ++ links bs := List.filterMap_append

theorem requests_held (program : List (ApiCall P C)) : (∀ c ∈ program, c.Builds) →
    Allowed Holding.Typed Holding.empty program → ∀ x ∈ requests program, x.1 ∈ (made program).map Dsp.id := by
  induction program using List.reverseRecOn with
  | nil => intro _ _ x hx; cases hx
  | append_singleton program c ih =>
    intro hb ht x hx
    rw [allowed_append] at ht
    rw [requests_append, List.mem_append] at hx
    rw [made_append, List.map_append, List.mem_append]
    rcases hx with hx | hx
    · exact .inl (ih (fun x hx => hb x (by simp [hx])) ht.1 x hx)
    · have hH := holding_of_builds program fun x hx => hb x (by simp [hx])
      cases c with
      | change node r =>
        have hx : x = (node.id, r) := by simpa [requests] using hx
        subst hx
        obtain ⟨y, hy, hy2, _⟩ := ht.2.1
        rw [hH] at hy
        obtain ⟨d, hd, rfl⟩ := List.mem_map.mp hy
        exact .inl (by rw [← hy2]; exact List.mem_map_of_mem hd)
      | _ => simp [requests] at hx

/-- A command that leaves nodes and requests alone. -/
theorem built_keep [Zero S] {ops : NodeOps S P C} {program : List (ApiCall P C)} {cs : List (Id × C)} {V W : View P}
    (B : Built ops program cs V) (c : ApiCall P C) (h1 : made [c] = []) (h3 : W.patch.nodes = V.patch.nodes)
    (h4 : W.node = V.node) (h5 : W.frames = V.frames) (h6 : W.patch.conns.map Conn.link = links program ++ links [c])
    (h7 : W.fromSystem = input (program ++ [c])) (h8 : W.toSystem = output (program ++ [c]))
    (h9 : W.running = true ↔ .start ∈ program ++ [c]) : Built ops (program ++ [c]) cs W := by
  have hm : made (program ++ [c]) = made program := by rw [made_append, h1, List.append_nil]
  refine ⟨by rw [hm, h3]; exact B.nodes, by rw [hm]; exact B.nodup, by rw [links_append]; exact h6, h7, h8, ?_, ?_, h9,
    h5.trans B.frames⟩
  · rw [hm, h4]; exact B.node
  · rw [hm, h4]; exact B.none

theorem input_snoc (program : List (ApiCall P C)) (c : ApiCall P C) (h : ∀ a, c ≠ .connectToInput a) :
    input (program ++ [c]) = input program := by
  cases c <;> simp_all [input]

theorem output_snoc (program : List (ApiCall P C)) (c : ApiCall P C) (h : ∀ a, c ≠ .connectToOutput a) :
    output (program ++ [c]) = output program := by
  cases c <;> simp_all [output]

theorem start_snoc (program : List (ApiCall P C)) (c : ApiCall P C) (h : c ≠ .start) :
    ApiCall.start ∈ program ++ [c] ↔ ApiCall.start ∈ program := by
  simp [Ne.symm h]

theorem built_snoc [Zero S] {ops : NodeOps S P C} {program : List (ApiCall P C)} {V W : View P} {c : ApiCall P C}
    (B : Built ops program (requests program) V) (hheld : ∀ x ∈ requests program, x.1 ∈ (made program).map Dsp.id)
    (hc : c.Builds) (h : Command.Effect ops V c.command W) :
    Built ops (program ++ [c]) (requests (program ++ [c])) W := by
  have hfr := B.fromSystem
  have hto := B.toSystem
  have hli := B.links
  have hru := B.running
  rw [requests_append]
  cases c with
  | create id inputs outputs state =>
    cases h with
    | addDsp _ q hq =>
    cases hq with
    | addNode _ _ hn =>
      have hm : made (program ++ [.create id inputs outputs state]) = made program ++ [⟨id, inputs, outputs, state⟩] :=
        made_append _ _
      have hnew : id ∉ (made program).map Dsp.id := by
        rw [← B.nodes]; exact hn
      rw [show requests [(ApiCall.create id inputs outputs state : ApiCall P C)] = [] from rfl, List.append_nil]
      refine ⟨?_, ?_, ?_, ?_, ?_, ?_, ?_, ?_, B.frames⟩
      · rw [hm, List.map_append, ← B.nodes]; rfl
      · rw [hm, List.map_append, List.nodup_append]
        refine ⟨B.nodup, by simp, ?_⟩
        intro a ha b hb' hab
        rw [List.map_singleton, List.mem_singleton] at hb'
        subst hb'
        exact hnew (hab ▸ ha)
      · rw [links_append]; simpa [links] using hli
      · rw [input_snoc _ _ (by simp)]; exact hfr
      · rw [output_snoc _ _ (by simp)]; exact hto
      · intro d hd
        rw [hm, List.mem_append, List.mem_singleton] at hd
        rcases hd with hd | rfl
        · obtain ⟨d', h1, h2⟩ := B.node d hd
          have : d.id ≠ id := fun h => hnew (h ▸ List.mem_map_of_mem hd)
          exact ⟨d', by simp only [if_neg this]; exact h1, h2⟩
        · refine ⟨⟨id, inputs, outputs, state⟩, by simp only [if_true], Turns.none _ ?_⟩
          intro x hx he
          exact hnew (by have := hheld x hx; rw [he] at this; exact this)
      · intro i hi
        rw [hm, List.map_append, List.mem_append, not_or] at hi
        have : i ≠ id := by simpa using hi.2
        simp only [if_neg this]
        exact B.none i hi.1
      · rw [start_snoc _ _ (by simp)]; exact hru
  | change node r =>
    obtain ⟨a1, a2, a3, a4, a5, a6, a7⟩ := change_effect B.node B.none h
    have hm : made (program ++ [.change node r]) = made program := by simp [made]
    refine ⟨by rw [hm, a1]; exact B.nodes, by rw [hm]; exact B.nodup, by rw [links_append, a1]; simpa [links] using hli,
      by rw [a2, input_snoc _ _ (by simp)]; exact hfr, by rw [a3, output_snoc _ _ (by simp)]; exact hto, ?_,
      by rw [hm]; exact a7, by rw [a4, start_snoc _ _ (by simp)]; exact hru, by rw [a5]; exact B.frames⟩
    rw [hm]
    exact a6
  | connectTo a b =>
    cases h with
    | addConnection _ id q _ hq =>
    cases hq
    rw [show requests [(ApiCall.connectTo a b : ApiCall P C)] = [] from rfl, List.append_nil]
    refine built_keep B _ rfl rfl rfl rfl ?_ (by rw [input_snoc _ _ (by simp)]; exact hfr)
      (by rw [output_snoc _ _ (by simp)]; exact hto) (by rw [start_snoc _ _ (by simp)]; exact hru)
    simp [hli, links, Conn.link, Connection.new]
  | connectChannelsTo a b s d n =>
    cases h with
    | addConnection _ id q _ hq =>
    cases hq
    rw [show requests [(ApiCall.connectChannelsTo a b s d n : ApiCall P C)] = [] from rfl, List.append_nil]
    refine built_keep B _ rfl rfl rfl rfl ?_ (by rw [input_snoc _ _ (by simp)]; exact hfr)
      (by rw [output_snoc _ _ (by simp)]; exact hto) (by rw [start_snoc _ _ (by simp)]; exact hru)
    simp [hli, links, Conn.link, Connection.new, Connection.withSourceChannel, Connection.withDestinationChannel]
  | connectToInput a =>
    cases h
    rw [show requests [(ApiCall.connectToInput a : ApiCall P C)] = [] from rfl, List.append_nil]
    exact built_keep B _ rfl rfl rfl rfl (by simpa [links] using hli) (by simp [input])
      (by rw [output_snoc _ _ (by simp)]; exact hto) (by rw [start_snoc _ _ (by simp)]; exact hru)
  | connectToOutput a =>
    cases h
    rw [show requests [(ApiCall.connectToOutput a : ApiCall P C)] = [] from rfl, List.append_nil]
    exact built_keep B _ rfl rfl rfl rfl (by simpa [links] using hli) (by rw [input_snoc _ _ (by simp)]; exact hfr)
      (by simp [output]) (by rw [start_snoc _ _ (by simp)]; exact hru)
  | start =>
    cases h
    rw [show requests [(ApiCall.start : ApiCall P C)] = [] from rfl, List.append_nil]
    exact built_keep B _ rfl rfl rfl rfl (by simpa [links] using hli) (by rw [input_snoc _ _ (by simp)]; exact hfr)
      (by rw [output_snoc _ _ (by simp)]; exact hto) (by simp)
  | disconnectFromNode a b => exact hc.elim
  | drop a => exact hc.elim
  | stop => exact hc.elim

/-- The network that a program builds. -/
theorem effects_built [Zero S] {ops : NodeOps S P C} (program : List (ApiCall P C)) : ∀ {W : View P},
    (∀ c ∈ program, c.Builds) → Allowed Holding.Typed Holding.empty program →
    Command.Effects ops View.empty (program.map ApiCall.command) W → Built ops program (requests program) W := by
  induction program using List.reverseRecOn with
  | nil =>
    intro W _ _ h
    cases h
    exact ⟨rfl, by simp [made], rfl, rfl, rfl, by simp [made], fun _ _ => rfl, by simp [View.empty], rfl⟩
  | append_singleton program c ih =>
    intro W hb ht h
    rw [List.map_append, List.map_singleton] at h
    obtain ⟨V, v1, v2⟩ := effects_append _ h
    rw [allowed_append] at ht
    have hb' : ∀ c ∈ program, c.Builds := fun x hx => hb x (by simp [hx])
    cases v2 with
    | cons w1 w2 =>
    cases w2
    exact built_snoc (ih hb' ht.1 v1) (requests_held program hb' ht.1) (hb c (by simp)) w1

/-! ## Signals -/

theorem received_congr [Zero S] [Add S] {p : Patch Connection} {sys sys' : Id → Nat → Nat → S} {sig sig' : Signals S}
    {f f' : Nat} (h1 : ∀ n c, sys n c f = sys' n c f') (h2 : ∀ n c, sig n c f = sig' n c f') (n : Id) (c : Nat) :
    p.received sys sig n c f = p.received sys' sig' n c f' := by
  unfold Patch.received Patch.arriving
  simp only [h1, h2]

/-- What arrives from the system at the nodes. -/
def system [Zero S] (input : Option Id) (x : Nat → Nat → S) (n : Id) (c F : Nat) : S :=
  if input = some n then x c F else 0

theorem foldl_zeros [AddZeroClass S] {α : Type} (q : α → Prop) [DecidablePred q] (g : α → S) (l : List α) : ∀ a : S,
    (l.map fun x => if q x then g x else 0).foldl (· + ·) a = ((l.filter fun x => q x).map g).foldl (· + ·) a := by
  induction l with
  | nil => intro a; rfl
  | cons x l ih =>
    intro a
    by_cases h : q x
    · simp only [List.map_cons, List.foldl_cons, if_pos h, List.filter_cons, decide_true, if_true, h]
      exact ih _
    · rw [List.map_cons, List.foldl_cons, if_neg h, add_zero, List.filter_cons_of_neg (by simpa using h)]
      exact ih a

/-- What a node is given is what arrives there. -/
theorem received_arriving [AddZeroClass S] {p : Patch Connection} {ls : List Link} (hl : p.conns.map Conn.link = ls)
    {nodes : List (Dsp P)} {input : Option Id} (hp : Plain nodes ls input) {x : Nat → Nat → S} {sig : Signals S}
    (hsrc : ∀ l ∈ ls, l.src ∈ nodes.map Dsp.id)
    (hsig : ∀ d ∈ nodes, ∀ c f, d.outputCount ≤ c → sig d.id c f = 0) (n : Id) (c F : Nat) :
    p.received (system input x) sig n c F = arriving ls input x sig n c F := by
  have hfil : ls.filter (fun l => l.dst = n) = (p.at' n .incoming).map Conn.link := by
    rw [← hl, List.filter_map, Patch.at']
    rfl
  have hin : p.at' n .incoming ≠ [] → input ≠ some n := by
    intro hne
    obtain ⟨k, hk⟩ := List.exists_mem_of_ne_nil _ hne
    have hk' : k.link ∈ ls.filter (fun l => l.dst = n) := by rw [hfil]; exact List.mem_map_of_mem hk
    rw [List.mem_filter] at hk'
    have := hp.single _ hk'.1
    rwa [of_decide_eq_true hk'.2] at this
  have hsum : (((p.at' n .incoming).map Conn.link).map fun l => l.brings sig c F).foldl (· + ·) 0 =
      (p.arriving sig n c F).foldl (· + ·) 0 := by
    rw [Patch.arriving, ← foldl_zeros (fun k : Conn Connection => k.data.Feeds c), List.map_map]
    rfl
  rw [arriving, hfil, Patch.received]
  cases hk : p.at' n .incoming with
  | nil => rfl
  | cons k ks =>
    have hno := hin (by rw [hk]; simp)
    rw [if_neg hno, ← hk, hsum]
    rw [hk]
    by_cases hpl : ks = [] ∧ k.data.Plain
    · refine (if_pos hpl).trans ?_
      rw [Patch.arriving, hk, hpl.1]
      have hmem : k.link ∈ ls := by
        have : k.link ∈ ls.filter (fun l => l.dst = n) := by rw [hfil, hk]; simp
        exact (List.mem_filter.mp this).1
      have hdst : k.link.dst = n := by
        have : k.link ∈ ls.filter (fun l => l.dst = n) := by rw [hfil, hk]; simp
        exact of_decide_eq_true (List.mem_filter.mp this).2
      obtain ⟨d, hd, hd2⟩ := List.mem_map.mp (hsrc _ hmem)
      have hw := hp.wide k.link hmem hpl.2.2 hpl.2.1 (by rw [hdst, hfil, hk, hpl.1]; rfl) d hd hd2
      obtain ⟨q1, q2⟩ := hpl.2
      by_cases hc : k.data.Feeds c
      · simp [hc, q1, q2]
      · simp only [List.filter_cons, hc, decide_false, Bool.false_eq_true, if_false, List.filter_nil, List.map_nil,
          List.foldl_nil]
        rw [show k.src = d.id from hd2.symm]
        apply hsig d hd
        have : k.link.channels = k.data.channelCount := rfl
        unfold Connection.Feeds at hc
        omega
    · refine (if_neg hpl).trans ?_
      congr 1
      split
      · rfl
      · rw [system, if_neg hno]

/-! ## Rendering -/

/-- What is heard when node `ts` is connected to the output. -/
def heardFrom [Zero S] (ts : Option Id) (nodes : List Id) (mc : Nat) (Y : Signals S) (c f : Nat) : S :=
  match ts with
  | some n => if n ∈ nodes ∧ c < mc then Y n c f else 0
  | none => 0

/-- One process call: every node goes through its blocks. -/
theorem network_call [Zero S] [Add S] {ops : NodeOps S P C} {p : Patch Connection}
    {full total channels mc sr offset : Nat} {now : Int} {input : Buf S} {fs ts : Option Id}
    {out : Nat → Nat → Option S} {before after : Id → Option (Dsp P)} (hfull : 0 < full)
    (h : RenderedCall ops p full total channels mc sr now input fs ts out offset before after) :
    offset ≤ total → (∀ n ∈ p.nodes, ∃ d, before n = some d) → ∃ tiles Y, Tiles full offset total tiles ∧
      (∀ n ∈ p.nodes, ∃ d d', before n = some d ∧ after n = some d' ∧ shape d' = shape d ∧
        chainRun ops sr [d] (tiles.map fun b => .block (Timestamp.incrementedBySamples now b.1 sr) b.2)
          (p.received (system fs (later offset (callInput true mc input))) Y n) = .ok (Y n, [d']) ∧
        ∀ c f, d.outputCount ≤ c → Y n c f = 0) ∧
      (∀ n, n ∉ p.nodes → before n = none → after n = none) ∧
      ∀ c f, c < channels → offset ≤ f → f < total → 
        out c f = some (heardFrom ts p.nodes mc Y c (f - offset)) := by
  induction h with
  | done offset states hd =>
    intro hle hb
    refine ⟨[], fun _ => silence, by simp only [Tiles]; omega, ?_, fun _ _ h => h, fun c f _ h1 h2 => by omega⟩
    intro n hn
    obtain ⟨d, hd⟩ := hb n hn
    exact ⟨d, d, hd, hd, rfl, rfl, fun _ _ _ => rfl⟩
  | block offset frames before mid after win sig h1 h2 h3 h4 hr ho' _ ih =>
    intro hle hb
    obtain ⟨tiles, Y, t1, t2, t3, t4⟩ := ih (by omega) (fun n hn => by
      obtain ⟨d, _, st, _, _, r3, _⟩ := hr.run n hn
      exact ⟨_, r3⟩)
    have hin : ∀ n c f, f < frames →
        p.received (arrivesFromSystem fs win (min input.channelCount mc) frames) sig n c f =
        p.received (system fs (later offset (callInput true mc input))) (fun n => followed frames (sig n) (Y n)) n c f := by
      intro n c f hf
      apply received_congr
      · intro n c
        simp only [arrivesFromSystem, system, later, callInput, Buf.sampleOrSilence, true_and]
        by_cases hfs : fs = some n
        · rw [if_pos hfs]
          by_cases hci : c < input.channelCount
          · by_cases hcm : c < mc
            · rw [if_pos ⟨hfs, by omega, hf⟩, if_pos hcm, h4 c f hf]
            · rw [if_neg (by omega), if_neg hcm]
          · rw [if_neg (by omega), Buf.sample?_eq_none _ _ _ (by omega)]
            simp
        · rw [if_neg (by simp [hfs]), if_neg hfs]
      · intro n c
        simp only [followed]
        rw [if_pos hf]
    have hlate : ∀ n, later frames (p.received (system fs (later offset (callInput true mc input)))
        (fun n => followed frames (sig n) (Y n)) n) =
        p.received (system fs (later (offset + frames) (callInput true mc input))) Y n := by
      intro n
      funext c f
      rw [later]
      apply received_congr
      · intro n c
        simp only [system, later, Nat.add_assoc]
      · intro n c
        simp only [followed]
        rw [if_neg (by omega), Nat.add_sub_cancel_left]
    refine ⟨(offset, frames) :: tiles, fun n => followed frames (sig n) (Y n),
      ⟨rfl, by omega, by omega, by omega, t1⟩, ?_, ?_, ?_⟩
    · intro n hn
      obtain ⟨d, o, st, r1, r2, r3, r4⟩ := hr.run n hn
      obtain ⟨e, d', e1, e2, e3, e4, e5⟩ := t2 n hn
      obtain rfl : { d with state := st } = e := by rw [r3] at e1; injection e1
      refine ⟨d, d', r1, e2, e3, ?_, ?_⟩
      · have hw : window d.inputCount frames (p.received (arrivesFromSystem fs win (min input.channelCount mc) frames) sig n) =
            window d.inputCount frames (p.received (system fs (later offset (callInput true mc input)))
              (fun n => followed frames (sig n) (Y n)) n) := by
          funext c f
          unfold window
          split
          · rename_i hcf; rw [hin n c f hcf.2]
          · rfl
        rw [hw] at r2
        have hcl : clip d.outputCount frames o = sig n := by funext c f; rw [r4 c f]; rfl
        rw [List.map_cons, chainRun, chainBlock, ok_bind r2]
        simp only [chainBlock, hcl]
        rw [show (do let q ← (Except.ok (sig n, []) : Res _)
                     pure (q.1, ({ d with state := st } : Dsp P) :: q.2)) =
          (Except.ok (sig n, [{ d with state := st }]) : Res _) from rfl, ok_bind rfl, hlate, ok_bind e4]
        rfl
      · intro c f hc
        simp only [followed]
        split
        · rw [r4 c f, if_neg (by omega)]
        · exact e5 c _ hc
    · intro n hn _
      exact t3 n hn (hr.gone n hn)
    · intro c f hcc hf1 hf2
      by_cases hf : f < offset + frames
      · obtain ⟨g, rfl⟩ := Nat.exists_eq_add_of_le hf1
        have hg : g < frames := by omega
        rw [ho' c g hcc hg]
        cases ts with
        | none => rfl
        | some n => simp only [heardFrom, followed, Nat.add_sub_cancel_left, if_pos hg]
      · rw [t4 c f hcc (by omega) hf2]
        cases ts with
        | none => rfl
        | some n =>
          have hfo : ¬ f - offset < frames := by omega
          simp only [heardFrom, followed, if_neg hfo]
          rw [show f - (offset + frames) = f - offset - frames by omega]

end Network
end Rawdio
