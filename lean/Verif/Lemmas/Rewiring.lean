import Verif.Spec.Rewiring
import Verif.Lemmas.NetworkRun
import Verif.Lemmas.Progress

/-! Helper lemmas about a network that changes while it plays. -/

namespace Rawdio
namespace Network

open Processor Chain

variable {S P C : Type}

/-! ## What a program has done -/

theorem upTo_zero (program : Nat → List (ApiCall P C)) : upTo program 0 = program 0 := by simp [upTo]

theorem upTo_succ (program : Nat → List (ApiCall P C)) (m : Nat) :
    upTo program (m + 1) = upTo program m ++ program (m + 1) := by
  rw [upTo, List.range_succ, List.flatMap_append]
  simp [upTo]

/-- All that a program has done before process call `m`. -/
def done (program : Nat → List (ApiCall P C)) (m : Nat) : List (ApiCall P C) := (List.range m).flatMap program

theorem upTo_eq (program : Nat → List (ApiCall P C)) (m : Nat) : upTo program m = done program m ++ program m := by
  rw [upTo, List.range_succ, List.flatMap_append]
  simp [done]

theorem done_succ (program : Nat → List (ApiCall P C)) (m : Nat) : done program (m + 1) = upTo program m := rfl

theorem afterAll_append (h : Holding) (as bs : List (ApiCall P C)) :
    h.afterAll (as ++ bs) = (h.afterAll as).afterAll bs := List.foldl_append

theorem input_append (as bs : List (ApiCall P C)) : input (as ++ bs) = (input bs).or (input as) := by
  rw [input, List.reverse_append, List.findSome?_append]
  rfl

theorem output_append (as bs : List (ApiCall P C)) : output (as ++ bs) = (output bs).or (output as) := by
  rw [output, List.reverse_append, List.findSome?_append]
  rfl

/-- The last start or stop. -/
def switched (program : List (ApiCall P C)) : Option Bool :=
  program.reverse.findSome? fun c => match c with
    | .start => some true
    | .stop => some false
    | _ => none

theorem started_append (as bs : List (ApiCall P C)) :
    started (as ++ bs) = (switched bs).getD (started as) := by
  have : switched (as ++ bs) = (switched bs).or (switched as) := by
    rw [switched, List.reverse_append, List.findSome?_append]
    rfl
  rw [show started (as ++ bs) = (switched (as ++ bs)).getD false from rfl, this]
  cases switched bs <;> rfl

/-- What one command does to everything but the nodes. -/
theorem effect_ends {ops : NodeOps S P C} {V W : View P} {c : ApiCall P C} (h : Command.Effect ops V c.command W) :
    W.fromSystem = (input [c]).or V.fromSystem ∧ W.toSystem = (output [c]).or V.toSystem ∧
      W.running = (switched [c]).getD V.running ∧ W.frames = V.frames := by
  cases c <;> cases h <;> exact ⟨rfl, rfl, rfl, rfl⟩

theorem effects_ends {ops : NodeOps S P C} (as : List (ApiCall P C)) : ∀ {V W : View P},
    Command.Effects ops V (as.map ApiCall.command) W →
    W.fromSystem = (input as).or V.fromSystem ∧ W.toSystem = (output as).or V.toSystem ∧
      W.running = (switched as).getD V.running ∧ W.frames = V.frames := by
  induction as with
  | nil => intro V W h; cases h; exact ⟨rfl, rfl, rfl, rfl⟩
  | cons c as ih =>
    intro V W h
    cases h with
    | cons e1 e2 =>
      obtain ⟨a1, a2, a3, a4⟩ := effect_ends e1
      obtain ⟨b1, b2, b3, b4⟩ := ih e2
      have e : switched (c :: as) = (switched as).or (switched [c]) := by
        rw [switched, List.reverse_cons, List.findSome?_append]
        rfl
      refine ⟨?_, ?_, ?_, b4.trans a4⟩
      · rw [b1, a1, show c :: as = [c] ++ as from rfl, input_append, Option.or_assoc]
      · rw [b2, a2, show c :: as = [c] ++ as from rfl, output_append, Option.or_assoc]
      · rw [b3, a3, e]
        cases switched as <;> rfl

/-! ## What a program holds -/

theorem after_known (h : Holding) (c : ApiCall P C) : ∀ x ∈ (h.after c).nodes,
    x ∈ h.nodes ∨ x.id ∈ (made [c]).map Dsp.id := by
  intro x hx
  cases c with
  | create i a b s =>
    simp only [Holding.after, List.mem_append, List.mem_singleton] at hx
    rcases hx with hx | rfl
    · exact .inl hx
    · exact .inr (by simp [made])
  | drop a =>
    simp only [Holding.after, List.mem_filter] at hx
    exact .inl hx.1
  | _ => exact .inl hx

theorem afterAll_known (as : List (ApiCall P C)) : ∀ h : Holding, ∀ x ∈ (h.afterAll as).nodes,
    x ∈ h.nodes ∨ x.id ∈ (made as).map Dsp.id := by
  induction as with
  | nil => intro h x hx; exact .inl hx
  | cons c as ih =>
    intro h x hx
    have hmade : made (c :: as) = made [c] ++ made as := made_append [c] as
    rw [hmade, List.map_append, List.mem_append]
    rcases ih (h.after c) x hx with hx | hx
    · rcases after_known h c x hx with hx | hx
      · exact .inl hx
      · exact .inr (.inl hx)
    · exact .inr (.inr hx)

theorem requests_known (as : List (ApiCall P C)) : ∀ h : Holding, Allowed Holding.Typed h as → ∀ x ∈ requests as,
    (∃ y ∈ h.nodes, y.id = x.1) ∨ x.1 ∈ (made as).map Dsp.id := by
  induction as with
  | nil => intro h _ x hx; cases hx
  | cons c as ih =>
    intro h ht x hx
    have hmade : made (c :: as) = made [c] ++ made as := made_append [c] as
    have hreq : requests (c :: as) = requests [c] ++ requests as := requests_append [c] as
    rw [hreq, List.mem_append] at hx
    rw [hmade, List.map_append, List.mem_append]
    rcases hx with hx | hx
    · cases c with
      | change node r =>
        have hx : x = (node.id, r) := by simpa [requests] using hx
        subst hx
        obtain ⟨y, hy, hy1, _⟩ := ht.1
        exact .inl ⟨y, hy, hy1⟩
      | _ => simp [requests] at hx
    · rcases ih (h.after c) ht.2 x hx with ⟨y, hy, hy1⟩ | hx
      · rcases after_known h c y hy with hy | hy
        · exact .inl ⟨y, hy, hy1⟩
        · exact .inr (.inl (hy1 ▸ hy))
      · exact .inr (.inr hx)

/-- Every connection comes from a node that is held. -/
theorem links_there {mc : Nat} (as : List (ApiCall P C)) : ∀ h : Holding,
    Allowed (fun h c => h.Typed c ∧ h.Careful mc c) h as →
    (∀ l ∈ h.links, ∃ x ∈ h.nodes, x.id = l.src) → ∀ l ∈ (h.afterAll as).links, ∃ x ∈ (h.afterAll as).nodes, x.id = l.src := by
  induction as with
  | nil => intro h _ hl; exact hl
  | cons c as ih =>
    intro h ha hl
    refine ih (h.after c) ha.2 ?_
    obtain ⟨ht, hc⟩ := ha.1
    cases c with
    | create i a b s =>
      intro l hl'
      obtain ⟨x, hx, e⟩ := hl l hl'
      exact ⟨x, List.mem_append_left _ hx, e⟩
    | connectTo a b =>
      intro l hl'
      rcases List.mem_append.mp hl' with h1 | h1
      · exact hl l h1
      · obtain rfl := List.mem_singleton.mp h1
        obtain ⟨x, hx, e, _⟩ := ht.1
        exact ⟨x, hx, e⟩
    | connectChannelsTo a b s d n =>
      intro l hl'
      rcases List.mem_append.mp hl' with h1 | h1
      · exact hl l h1
      · obtain rfl := List.mem_singleton.mp h1
        obtain ⟨x, hx, e, _⟩ := ht.1
        exact ⟨x, hx, e⟩
    | disconnectFromNode a b =>
      intro l hl'
      exact hl l (List.mem_filter.mp hl').1
    | drop a =>
      intro l hl'
      obtain ⟨x, hx, e⟩ := hl l hl'
      refine ⟨x, List.mem_filter.mpr ⟨hx, ?_⟩, e⟩
      have := (hc l hl').1
      simpa [e] using this
    | _ => exact hl

/-! ## Commands -/

/-- Where the nodes come from that are there after some calls of the API: they were there before, or they are made. -/
theorem effects_lives [Zero S] {ops : NodeOps S P C} (as : List (ApiCall P C)) : ∀ {V W : View P} {h : Holding},
    Command.Effects ops V (as.map ApiCall.command) W → (∀ i d, V.node i = some d → d.id = i) →
    Allowed Holding.Typed h as → (∀ x ∈ h.nodes, x.id ∉ (made as).map Dsp.id) → ((made as).map Dsp.id).Nodup →
    ∀ i e', W.node i = some e' → (∃ e, V.node i = some e ∧ Turns ops (requests as) e e') ∨
      ∃ d ∈ made as, d.id = i ∧ Turns ops (requests as) d e' := by
  induction as using List.reverseRecOn with
  | nil =>
    intro V W h e _ _ _ _ i e' he
    cases e
    exact .inl ⟨e', he, Turns.nil e'⟩
  | append_singleton as c ih =>
    intro V W h e hV ht hf hn i e' he
    rw [List.map_append, List.map_singleton] at e
    obtain ⟨U, u1, u2⟩ := effects_append _ e
    rw [allowed_append] at ht
    rw [made_append, List.map_append] at hf hn
    rw [requests_append, made_append]
    have ih := ih u1 hV ht.1 (fun x hx hx' => hf x hx (List.mem_append_left _ hx')) (List.nodup_append.mp hn).1
    have keep : requests [c] = [] → U.node i = some e' → (∃ e, V.node i = some e ∧ Turns ops (requests as ++ requests [c]) e e') ∨
        ∃ d ∈ made as ++ made [c], d.id = i ∧ Turns ops (requests as ++ requests [c]) d e' := by
      intro hr hu
      rw [hr, List.append_nil]
      rcases ih i e' hu with h1 | ⟨d, h1, h2⟩
      · exact .inl h1
      · exact .inr ⟨d, List.mem_append_left _ h1, h2⟩
    cases u2 with
    | cons e1 e2 =>
    cases e2
    cases c with
    | create j a b s =>
      cases e1 with
      | addDsp d q hq =>
        simp only at he
        split at he
        · rename_i hi
          injection he with he
          subst he
          refine .inr ⟨⟨j, a, b, s⟩, List.mem_append_right _ (by simp [made]), hi.symm, ?_⟩
          refine Turns.none _ ?_
          have hreq : requests [(ApiCall.create j a b s : ApiCall P C)] = [] := rfl
          rw [hreq, List.append_nil]
          intro x hx hxj
          rcases requests_known as h ht.1 x hx with ⟨y, hy, hy1⟩ | h2
          · exact hf y hy (List.mem_append_right _ (by rw [hy1, hxj]; simp [made]))
          · rw [hxj] at h2
            exact (List.nodup_append.mp hn).2.2 _ h2 _ (by simp [made]) rfl
        · exact keep rfl he
    | drop a =>
      cases e1 with
      | removeDsp j q hq =>
        simp only at he
        split at he
        · cases he
        · exact keep rfl he
    | change node r =>
      have hreq : requests [(ApiCall.change node r : ApiCall P C)] = [(node.id, r)] := rfl
      have hm : made [(ApiCall.change node r : ApiCall P C)] = [] := rfl
      rw [hreq, hm, List.append_nil]
      cases e1 with
      | change j r d s k1 k2 =>
        simp only at he
        split at he
        · rename_i hi
          injection he with he
          subst he
          subst hi
          rcases ih _ d k1 with ⟨e, h1, h2⟩ | ⟨e, h1, h2, h3⟩
          · refine .inl ⟨e, h1, h2.append ?_⟩
            have : d.id = node.id := (congrArg Prod.fst h2.1).trans (hV _ _ h1)
            rw [← this]
            exact Turns.own k2
          · refine .inr ⟨e, h1, h2, h3.append ?_⟩
            have : d.id = node.id := (congrArg Prod.fst h3.1).trans h2
            rw [← this]
            exact Turns.own k2
        · rename_i hi
          rcases ih _ e' he with ⟨e, h1, h2⟩ | ⟨e, h1, h2, h3⟩
          · have : e'.id = i := (congrArg Prod.fst h2.1).trans (hV _ _ h1)
            exact .inl ⟨e, h1, h2.append (Turns.other (by rw [this]; exact hi))⟩
          · have : e'.id = i := (congrArg Prod.fst h3.1).trans h2
            exact .inr ⟨e, h1, h2, h3.append (Turns.other (by rw [this]; exact hi))⟩
      | changeAbsent j r hj =>
        have hi : i ≠ node.id := by
          rintro rfl
          rw [hj] at he
          cases he
        rcases ih _ e' he with ⟨e, h1, h2⟩ | ⟨e, h1, h2, h3⟩
        · have : e'.id = i := (congrArg Prod.fst h2.1).trans (hV _ _ h1)
          exact .inl ⟨e, h1, h2.append (Turns.other (by rw [this]; exact hi))⟩
        · have : e'.id = i := (congrArg Prod.fst h3.1).trans h2
          exact .inr ⟨e, h1, h2, h3.append (Turns.other (by rw [this]; exact hi))⟩
    | _ => cases e1; exact keep rfl he

/-! ## Process calls -/

/-- What is known of an engine after `n` process calls of a program. -/
structure Stands (mc : Nat) (program : Nat → List (ApiCall P C)) (n F : Nat) (V : View P) : Prop where
  agrees : Agrees mc (holding (done program n)) V
  fromSystem : V.fromSystem = input (done program n)
  toSystem : V.toSystem = output (done program n)
  running : V.running = started (done program n)
  frames : V.frames = F
  ids : ∀ i d, V.node i = some d → d.id = i
  nodes : ∀ i, i ∈ V.patch.nodes ↔ ∃ d, V.node i = some d

theorem stands_new (mc : Nat) (program : Nat → List (ApiCall P C)) : Stands mc program 0 0 View.empty where
  agrees := agrees_empty mc
  fromSystem := rfl
  toSystem := rfl
  running := rfl
  frames := rfl
  ids := by intro i d h; cases h
  nodes := by simp [View.empty, Patch.empty]

theorem arriving_from [Zero S] [Add S] {ls : List Link} {inp : Option Id} {x : Nat → Nat → S} {Y Y' : Signals S}
    (h : ∀ l ∈ ls, Y l.src = Y' l.src) (n : Id) : arriving ls inp x Y n = arriving ls inp x Y' n := by
  funext c F
  unfold arriving
  congr 1
  apply List.map_congr_left
  intro l hl
  unfold Link.brings
  rw [h l (List.mem_filter.mp hl).1]

theorem plain_subset {nodes nodes' : List (Dsp P)} {ls : List Link} {inp : Option Id} (hp : Plain nodes ls inp)
    (h : ∀ d ∈ nodes', ∃ e ∈ nodes, shape e = shape d) : Plain nodes' ls inp where
  single := hp.single
  wide l hl h1 h2 h3 d hd hs := by
    obtain ⟨e, he, hed⟩ := h d hd
    have := hp.wide l hl h1 h2 h3 e he ((congrArg Prod.fst hed).trans hs)
    rwa [show e.outputCount = d.outputCount from congrArg (fun x => x.2.2) hed] at this

/-- One process call. -/
theorem step_rewiring [AddZeroClass S] {ops : NodeOps S P C} {mf mc sr n F : Nat} (hm : 0 < mf)
    {program : Nat → List (ApiCall P C)}
    (ha : Allowed (fun h c => h.Typed c ∧ h.Careful mc c) Holding.empty (upTo program n))
    (hu : ((made (upTo program n)).map Dsp.id).Nodup)
    (hp : started (upTo program n) = true →
      Plain (made (upTo program n)) (holding (upTo program n)).links (input (upTo program n)))
    {V W : View P} (hV : Stands mc program n F V)
    (hsh : ∀ i d, V.node i = some d → ∃ e ∈ made (done program n), shape e = shape d) {k : Rawdio.Call S P C}
    (hk : k.commands.map Prod.fst = (program n).map ApiCall.command)
    {out : Nat → Nat → Option S} (h : View.Call ops mf mc sr V k out W) :
    ∃ bs Y, (if started (upTo program n) = true then BlocksOf mf sr F k.output.frameCount bs else bs = []) ∧
      Stands mc program (n + 1) (F + if started (upTo program n) = true then k.output.frameCount else 0) W ∧
      (∀ i e', W.node i = some e' → ∃ e, (V.node i = some e ∨ e ∈ made (program n)) ∧ shape e' = shape e ∧
        chainRun ops sr [e] ((requests (program n)).map (fun x => .change x.1 x.2) ++ bs.map fun b => .block b.1 b.2)
          (arriving (holding (upTo program n)).links (input (upTo program n)) (callInput true mc k.input) Y i) =
            .ok (Y i, [e'])) ∧
      (∀ i, ¬ There (upTo program n) i → Y i = silence) ∧
      ∀ c f, c < k.output.channelCount → f < k.output.frameCount → 
        out c f = some (if started (upTo program n) = true then heard (output (upTo program n)) mc Y c f else 0) := by
  have hup := upTo_eq program n
  rw [hup, allowed_append] at ha
  have ht := allowed_typed _ ha.2
  have hfresh : ∀ x ∈ (holding (done program n)).nodes, x.id ∉ (made (program n)).map Dsp.id := by
    intro x hx hx'
    rcases afterAll_known _ _ x hx with h1 | h1
    · cases h1
    · rw [hup, made_append, List.map_append] at hu
      exact (List.nodup_append.mp hu).2.2 _ h1 _ hx' rfl
  have hnod : ((made (program n)).map Dsp.id).Nodup := by
    rw [hup, made_append, List.map_append] at hu
    exact (List.nodup_append.mp hu).2.1
  have key : ∀ U, Command.Effects ops V (k.commands.map Prod.fst) U → Stands mc program (n + 1) F U ∧
      ∀ i e', U.node i = some e' → ∃ e, (V.node i = some e ∨ e ∈ made (program n) ∧ e.id = i) ∧
        Turns ops (requests (program n)) e e' := by
    intro U hU
    rw [hk] at hU
    obtain ⟨a1, a2, a3, a4⟩ := effects_ends _ hU
    have hl := effects_lives _ hU hV.ids ht hfresh hnod
    have hl' : ∀ i e', U.node i = some e' → ∃ e, (V.node i = some e ∨ e ∈ made (program n) ∧ e.id = i) ∧
        Turns ops (requests (program n)) e e' := by
      intro i e' he
      rcases hl i e' he with ⟨e, h1, h2⟩ | ⟨e, h1, h2, h3⟩
      · exact ⟨e, .inl h1, h2⟩
      · exact ⟨e, .inr ⟨h1, h2⟩, h3⟩
    refine ⟨⟨?_, ?_, ?_, ?_, a4.trans hV.frames, ?_, effects_nodes hU hV.nodes⟩, hl'⟩
    · have := effects_agrees _ hV.agrees ha.2 hU
      rwa [holding, ← afterAll_append, ← hup, ← done_succ] at this
    · rw [a1, hV.fromSystem, ← input_append, ← hup, done_succ]
    · rw [a2, hV.toSystem, ← output_append, ← hup, done_succ]
    · rw [a3, hV.running, ← started_append, ← hup, done_succ]
    · intro i e' he
      obtain ⟨e, h1, h2⟩ := hl' i e' he
      have := congrArg Prod.fst h2.1
      rcases h1 with h1 | ⟨_, h1⟩
      · exact this.trans (hV.ids _ _ h1)
      · exact this.trans h1
  cases h with
  | stopped _ _ _ e1 e2 e3 =>
    obtain ⟨G, gs⟩ := key _ e1
    rw [G.running, done_succ] at e2
    have hno : ¬ started (upTo program n) = true := by rw [e2]; decide
    refine ⟨[], fun _ => silence, by rw [if_neg hno], by rw [if_neg hno]; exact G, ?_, fun _ _ => rfl, ?_⟩
    · intro i e' he
      obtain ⟨e, h1, h2⟩ := gs i e' he
      refine ⟨e, h1.imp id And.left, h2.1, ?_⟩
      rw [List.map_nil, h2.2]
      rfl
    · intro c f hc hf
      rw [if_neg hno, e3, if_pos ⟨hc, hf⟩]
  | running U _ now node _ e1 e2 e3 e4 =>
    obtain ⟨G, gs⟩ := key _ e1
    rw [G.running, done_succ] at e2
    obtain ⟨tiles, Y, t1, t2, t3, t4⟩ := network_call hm e4 (Nat.zero_le _) (fun n hn => (G.nodes n).mp hn)
    have hl0 : later 0 (callInput true mc k.input) = callInput true mc k.input := by funext c f; simp [later]
    rw [G.fromSystem, hl0, done_succ] at t2
    rw [G.toSystem, done_succ] at t4
    rw [G.frames] at e3
    have hthere : ∀ i, There (upTo program n) i ↔ i ∈ U.patch.nodes := by
      intro i
      rw [G.agrees.nodes, done_succ, List.mem_map]
      rfl
    let Z : Signals S := fun i => if i ∈ U.patch.nodes then Y i else silence
    have hZ : ∀ i ∈ U.patch.nodes, Z i = Y i := fun i hi => if_pos hi
    let nodes : List (Dsp P) := U.patch.nodes.filterMap U.node
    have hnodes : ∀ d ∈ nodes, ∃ e ∈ made (upTo program n), shape e = shape d := by
      intro d hd
      obtain ⟨i, hi, hd⟩ := List.mem_filterMap.mp hd
      obtain ⟨e, h1, h2⟩ := gs i d hd
      rw [hup, made_append]
      rcases h1 with h1 | ⟨h1, _⟩
      · obtain ⟨d0, h3, h4⟩ := hsh i e h1
        exact ⟨d0, List.mem_append_left _ h3, h4.trans h2.1.symm⟩
      · exact ⟨e, List.mem_append_right _ h1, h2.1.symm⟩
    have hlinks : ∀ l ∈ (holding (upTo program n)).links, l.src ∈ U.patch.nodes := by
      intro l hl
      rw [← hthere]
      exact links_there _ _ (by rw [hup, allowed_append]; exact ha) (by simp [Holding.empty]) l hl
    have hrec : ∀ i, U.patch.received (system (input (upTo program n)) (callInput true mc k.input)) Y i =
        arriving (holding (upTo program n)).links (input (upTo program n)) (callInput true mc k.input) Z i := by
      intro i
      rw [← arriving_from (Y := Y) (fun l hl => (hZ _ (hlinks l hl)).symm)]
      funext c f
      refine received_arriving (nodes := nodes) G.agrees.links (plain_subset (hp e2) hnodes) ?_ ?_ i c f
      · intro l hl
        obtain ⟨d, hd⟩ := (G.nodes _).mp (hlinks l hl)
        rw [← G.ids _ _ hd]
        exact List.mem_map_of_mem (List.mem_filterMap.mpr ⟨_, hlinks l hl, hd⟩)
      · intro d hd c f hc
        obtain ⟨j, hj, hd⟩ := List.mem_filterMap.mp hd
        obtain ⟨e, e', h1, h2, h3, h4, h5⟩ := t2 j hj
        obtain rfl : e = d := by rw [h1] at hd; injection hd
        rw [G.ids _ _ h1]
        exact h5 c f hc
    have hmem : ∀ i e', node i = some e' → i ∈ U.patch.nodes := by
      intro i e' he
      by_contra hi
      rw [t3 i hi (by
        cases hn : U.node i with
        | none => rfl
        | some d => exact absurd ((G.nodes i).mpr ⟨d, hn⟩) hi)] at he
      cases he
    refine ⟨_, Z, by rw [if_pos e2]; exact ⟨now, tiles, e3, t1, rfl⟩, ?_, ?_, ?_, ?_⟩
    · rw [if_pos e2]
      refine ⟨⟨G.agrees.nodes, G.agrees.links, ?_, G.agrees.unique, G.agrees.small, G.agrees.fits, G.agrees.narrow,
        G.agrees.single, G.agrees.acyclic⟩, G.fromSystem, G.toSystem, G.running, ?_, ?_, ?_⟩
      · intro i d hd
        obtain ⟨d', e5, e6, e7⟩ := rendered_counts e4 i d hd
        obtain ⟨x, hx, f1, f2, f3⟩ := G.agrees.counts i d' e5
        exact ⟨x, hx, f1, f2.trans e7, f3.trans e6⟩
      · simp only [G.frames]
      · intro i d hd
        obtain ⟨e, e', h1, h2, h3, h4, h5⟩ := t2 i (hmem i d hd)
        simp only at hd
        rw [h2] at hd
        injection hd with hd
        subst hd
        exact (congrArg Prod.fst h3).trans (G.ids _ _ h1)
      · intro i
        constructor
        · intro hi
          obtain ⟨e, e', h1, h2, _⟩ := t2 i hi
          exact ⟨e', h2⟩
        · rintro ⟨d, hd⟩
          exact hmem i d hd
    · intro i e' he
      have hi := hmem i e' he
      obtain ⟨d, d', h1, h2, h3, h4, h5⟩ := t2 i hi
      obtain rfl : d' = e' := by simp only at he; rw [h2] at he; injection he
      obtain ⟨e, g1, g2⟩ := gs i d h1
      refine ⟨e, g1.imp id And.left, h3.trans g2.1, ?_⟩
      rw [g2.2, List.map_map, ← hrec, hZ i hi]
      exact h4
    · intro i hi
      rw [hthere] at hi
      exact if_neg hi
    · intro c f hc hf
      rw [if_pos e2, t4 c f hc (Nat.zero_le _) hf, Nat.sub_zero]
      unfold heardFrom heard
      cases ho : output (upTo program n) with
      | none => simp
      | some i =>
        by_cases hi : i ∈ U.patch.nodes
        · simp [hi, Z]
        · simp [hi, Z, silence]

end Network
end Rawdio
