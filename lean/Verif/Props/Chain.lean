import Verif.Lemmas.ChainSession
import Verif.Props.Gain

/-!
# Nodes connected in a row (C81)
-/

namespace Rawdio
namespace Chain

open Processor

variable {S P C : Type}

/-- C81: `connect_nodes!` makes exactly the connections that its arrows show, in their order; it does not compile if it
has no arrow or if one of them leads from the output, to the input, or from the input to the output. -/
theorem C81_arrows (stages : List Stage) : (connectNodes stages : Option (List (ApiCall P C))) =
    if 2 ≤ stages.length then (stages.zip stages.tail).mapM fun a => a.1.arrow a.2 else none := by
  induction stages with
  | nil => rfl
  | cons a l ih =>
    rcases l with _ | ⟨b, l⟩
    · cases a <;> rfl
    · rw [if_pos (by simp)]
      rcases l with _ | ⟨c, l⟩
      · cases a <;> cases b <;> simp [connectNodes, Stage.arrow]
      · rw [if_pos (by simp)] at ih
        simp only [List.tail_cons] at ih
        rw [List.tail_cons, List.zip_cons_cons, List.mapM_cons, ← ih]
        cases a <;> cases b <;> simp [connectNodes, Stage.arrow, Option.map_eq_bind, Function.comp_def]

/-- A row that leads nowhere: two nodes that are connected to each other only. -/
example : (connectNodes [.input, .node ⟨1, 2⟩, .node ⟨2, 2⟩] : Option (List (ApiCall P C))) =
    some [.connectToInput ⟨1, 2⟩, .connectTo ⟨1, 2⟩ ⟨2, 2⟩] := by
  rw [C81_arrows]
  rfl

/-- C81: `connect_nodes!` makes exactly the connections that its arrows show. -/
theorem C81_connect_nodes (fromInput : Bool) (d : Dsp P) (ds : List (Dsp P)) :
    ∃ cs : List (ApiCall P C), connectNodes (chainStages fromInput (d :: ds)) = some cs ∧
      cs = (if fromInput then [.connectToInput ⟨d.id, d.outputCount⟩] else []) ++
        ((d :: ds).zip ds).map (fun x => .connectTo ⟨x.1.id, x.1.outputCount⟩ ⟨x.2.id, x.2.outputCount⟩) ++
        [.connectToOutput ⟨((d :: ds).getLast (by simp)).id, ((d :: ds).getLast (by simp)).outputCount⟩] :=
  ⟨_, connectNodes_stages fromInput d ds, rfl⟩

/-- C81: whatever the nodes do, whatever is requested of them and when, and however the frames are divided into
process calls and blocks: frame `F` of the session leaves the engine as frame `F` of the signal that has gone through
the nodes one after the other; channels that the engine does not have are silent. -/
theorem C81_stream [AddZeroClass S] (ops : NodeOps S P C) (fromInput : Bool) (ds : List (Dsp P)) (hne : ds ≠ [])
    (mf mc sr : Nat) (hm : 0 < mf) (changes : Nat → List (Id × C)) (ks : List (Call S P C)) (k : Call S P C)
    (hks : ∀ l ∈ ks ++ [k], l.Valid) (hp : PlaysChain fromInput ds changes (ks ++ [k])) (E E' : Processor S P)
    (hE : calls ops (new sr mc mf) ks = .ok E) (o : Buf S)
    (h : E.process ops k.env k.commands k.input k.output = .ok (o, E')) :
    ∃ es y ds', ChainHistory mf sr changes (ks ++ [k]) es ∧
      chainRun ops sr ds es (sessionInput fromInput mc (ks ++ [k])) = .ok (y, ds') ∧
      ∀ c f, c < k.output.channelCount → f < k.output.frameCount →
        o.sample? c f = some (if c < mc then y c (framesIn ks + f) else 0) := by
  obtain ⟨V, s1, s2, s3⟩ := calls_looks hm ks E (fun l hl => hks l (by simp [hl])) hE
  obtain ⟨W, w1, _, _, _⟩ := process_looks hm s3 s2 (hks k (by simp)) h
  obtain ⟨es, y, ds', hne', h1, h2, h3⟩ := session_stream (fromInput := fromInput) (changes := changes) hm hne s1
    (fun i k' hk' => hp i k' (by
      rw [List.getElem?_append_left (by by_contra hn; rw [List.getElem?_eq_none (by omega)] at hk'; cases hk')]
      exact hk'))
  have hV : if (ks.length == 0) = true then V = View.empty ∧ ds' = ds ∧ framesIn ks = 0
      else Playing fromInput ds' (framesIn ks) V := by
    by_cases h0 : ks.length = 0
    · rw [if_pos h0] at h3
      obtain rfl := List.length_eq_zero_iff.mp h0
      rw [if_pos (by simp)]
      exact ⟨h3.1, h3.2, rfl⟩
    · rw [if_neg h0] at h3
      rwa [if_neg (by simpa using h0)]
  obtain ⟨bs, b1, z, ds2, b2, b3, b4, b5⟩ := step_stream hm hne' hV (cs := changes ks.length)
    (by simpa [ApiCall.command] using hp ks.length k (by simp)) w1
  have hH := ChainHistory.snoc k bs h1 b1
  rw [List.append_assoc] at hH
  refine ⟨_, _, ds2, hH, run_snoc hne hne' (history_total h1) ?_ h2 b3, ?_⟩
  · have := history_total hH
    rw [Gain.framesIn_append] at this
    have h4 := history_total h1
    simp only [ChainEvent.total, List.map_append, List.sum_append] at *
    omega
  · intro c f hc hf
    rw [b5 c f hc hf]
    simp only [followed]
    rw [if_neg (by omega : ¬ framesIn ks + f < framesIn ks), Nat.add_sub_cancel_left]

/-- C81: one signal that has gone through the nodes accounts for the output of every call of a session. -/
theorem C81_session [AddZeroClass S] (ops : NodeOps S P C) (fromInput : Bool) (ds : List (Dsp P)) (hne : ds ≠ [])
    (mf mc sr : Nat) (hm : 0 < mf) (changes : Nat → List (Id × C)) (ks : List (Call S P C))
    (hks : ∀ l ∈ ks, l.Valid) (hp : PlaysChain fromInput ds changes ks) (E : Processor S P)
    (hE : calls ops (new sr mc mf) ks = .ok E) :
    ∃ es y ds', ChainHistory mf sr changes ks es ∧
      chainRun ops sr ds es (sessionInput fromInput mc ks) = .ok (y, ds') ∧
      ∀ i k E1 o E2, ks[i]? = some k → calls ops (new sr mc mf) (ks.take i) = .ok E1 →
        E1.process ops k.env k.commands k.input k.output = .ok (o, E2) →
        ∀ c f, c < k.output.channelCount → f < k.output.frameCount →
          o.sample? c f = some (if c < mc then y c (framesIn (ks.take i) + f) else 0) := by
  obtain ⟨_, es, y, ds', _, _, _, h1, h2, _, h3⟩ := session_outputs hm hne ks E hks hp hE
  exact ⟨es, y, ds', h1, h2, h3⟩

/-! ## Gain nodes in a row -/

theorem gain_change {isZero isOne : ℝ → Bool} (i : Id) (c : ParameterChange ℝ)
    (ds : List (Dsp (RealtimeParameter ℝ))) : chainChange (Gain.ops isZero isOne) i c ds =
      .ok (ds.map fun d => { d with state := if i = d.id then d.state.addChange c else d.state }) := by
  rw [chainChange]
  apply mapM_pure
  intro d _
  by_cases h : d.id = i
  · subst h
    rw [if_pos rfl, if_pos rfl]; rfl
  · rw [if_neg h, if_neg (fun h' => h h'.symm)]; rfl

theorem gain_block {isZero isOne : ℝ → Bool} (hz : ∀ x, isZero x = true → x = 0)
    (ho : ∀ x, isOne x = true → x = 1) (sr : Nat) (t : Int) (n ch : Nat) (ds : List (Dsp (RealtimeParameter ℝ))) :
    (∀ d ∈ ds, d.inputCount = ch ∧ d.outputCount = ch) → ∀ x : Nat → Nat → ℝ,
    ∃ y, chainBlock (Gain.ops isZero isOne) sr t n ds x =
        .ok (y, ds.map fun d => { d with state := (d.state.process realArith t n sr).2 }) ∧
      (∀ c f, c < ch → f < n →
        y c f = x c f * (ds.map fun d => (d.state.process realArith t n sr).1.getD f 0).prod) ∧
      (∀ c f, ch ≤ c → f < n → ds ≠ [] → y c f = 0) := by
  induction ds with
  | nil => intro _ x; exact ⟨x, rfl, by simp, fun _ _ _ _ h => absurd rfl h⟩
  | cons d ds ih =>
    intro hd x
    obtain ⟨h1, h2⟩ := hd d (by simp)
    have hrun : (Gain.ops isZero isOne).run d.state ⟨n, sr, t, window d.inputCount n x, window d.outputCount n silence⟩ =
        .ok (fun c f => Gain.sample isZero isOne (d.state.process realArith t n sr).1
          ((window d.inputCount n x c f).getD ((window d.outputCount n silence c f).getD 0)) f,
          (d.state.process realArith t n sr).2) := rfl
    obtain ⟨y, y1, y2, y3⟩ := ih (fun e he => hd e (by simp [he])) (clip d.outputCount n
      (fun c f => Gain.sample isZero isOne (d.state.process realArith t n sr).1
          ((window d.inputCount n x c f).getD ((window d.outputCount n silence c f).getD 0)) f))
    refine ⟨y, ?_, ?_, ?_⟩
    · rw [chainBlock, hrun]
      simp only [bind, Except.bind, y1]
      rfl
    · intro c f hc hf
      rw [y2 c f hc hf, List.map_cons, List.prod_cons, ← mul_assoc]
      congr 1
      rw [clip, if_pos ⟨by omega, hf⟩, Gain.sample_eq hz ho _ _ _ (by
        rw [RealtimeParameter.process_length]; exact hf)]
      simp only [window]
      rw [if_pos (And.intro (by omega : c < d.inputCount) hf), Option.getD_some]
    · intro c f hc hf _
      by_cases hds : ds = []
      · subst hds
        cases y1
        rw [clip, if_neg (by omega)]
      · exact y3 c f hc hf hds

theorem gain_run {isZero isOne : ℝ → Bool} (hz : ∀ x, isZero x = true → x = 0)
    (ho : ∀ x, isOne x = true → x = 1) (sr ch : Nat) (es : List (ChainEvent (ParameterChange ℝ))) :
    ∀ (ds : List (Dsp (RealtimeParameter ℝ))), ds ≠ [] → (∀ d ∈ ds, d.inputCount = ch ∧ d.outputCount = ch) →
    ∀ (x y : Nat → Nat → ℝ) (ds' : List (Dsp (RealtimeParameter ℝ))),
    chainRun (Gain.ops isZero isOne) sr ds es x = .ok (y, ds') → ∀ c f, f < ChainEvent.total es →
      y c f = if c < ch then x c f * (ds.map fun d => (gainTrack sr d.id d.state es).getD f 0).prod else 0 := by
  induction es with
  | nil => intro ds _ _ x y ds' _ c f hf; simp [ChainEvent.total] at hf
  | cons e es ih =>
    intro ds hne hd x y ds' h c f hf
    cases e with
    | change i r =>
      rw [chainRun, gain_change] at h
      have := ih _ (by simpa using hne) (by
        intro d hd'
        obtain ⟨e, he, rfl⟩ := List.mem_map.mp hd'
        exact hd e he) x y ds' h c f (by simpa [ChainEvent.total, ChainEvent.frames] using hf)
      rw [this, List.map_map]
      rfl
    | block t n =>
      have ht : ChainEvent.total (.block t n :: es) = n + ChainEvent.total es := by
        simp [ChainEvent.total, ChainEvent.frames]
      obtain ⟨z, z1, z2, z3⟩ := gain_block hz ho sr t n ch ds hd x
      rw [chainRun, z1] at h
      simp only [bind, Except.bind] at h
      cases h1 : chainRun (Gain.ops isZero isOne) sr
          (ds.map fun d => { d with state := (d.state.process realArith t n sr).2 }) es (later n x) with
      | error e => rw [h1] at h; cases h
      | ok r =>
        rw [h1] at h
        cases h
        have hr := ih _ (by simpa using hne) (by
          intro d hd'
          obtain ⟨e, he, rfl⟩ := List.mem_map.mp hd'
          exact hd e he) (later n x) r.1 r.2 h1 c
        simp only [followed]
        by_cases hfn : f < n
        · rw [if_pos hfn]
          by_cases hc : c < ch
          · rw [if_pos hc, z2 c f hc hfn]
            congr 2
            apply List.map_congr_left
            intro d _
            rw [gainTrack, Gain.getD_left (by rw [RealtimeParameter.process_length]; exact hfn)]
          · rw [if_neg hc, z3 c f (by omega) hfn hne]
        · rw [if_neg hfn, hr (f - n) (by omega), List.map_map]
          by_cases hc : c < ch
          · rw [if_pos hc, if_pos hc, later, Nat.add_sub_cancel' (by omega)]
            congr 2
            apply List.map_congr_left
            intro d _
            simp only [Function.comp_apply]
            rw [gainTrack, Gain.getD_right (by rw [RealtimeParameter.process_length]; omega),
              RealtimeParameter.process_length]
          · rw [if_neg hc, if_neg hc]

/-- C81: the gains of gain nodes in a row multiply, each with its own automation: frame `F` of the session leaves the
engine as the frame of the input, multiplied by value number `F` of every node's gain. -/
theorem C81_gains {isZero isOne : ℝ → Bool} (hz : ∀ x, isZero x = true → x = 0) (ho : ∀ x, isOne x = true → x = 1)
    (ds : List (Dsp (RealtimeParameter ℝ))) (hne : ds ≠ []) (n : Nat)
    (hd : ∀ d ∈ ds, d.inputCount = n ∧ d.outputCount = n) (mf mc sr : Nat) (hm : 0 < mf)
    (changes : Nat → List (Id × ParameterChange ℝ)) (ks : List GainCall) (k : GainCall)
    (hks : ∀ l ∈ ks ++ [k], l.Valid) (hp : PlaysChain true ds changes (ks ++ [k]))
    (E E' : Processor ℝ (RealtimeParameter ℝ)) (hE : calls (Gain.ops isZero isOne) (new sr mc mf) ks = .ok E)
    (o : Buf ℝ) (h : E.process (Gain.ops isZero isOne) k.env k.commands k.input k.output = .ok (o, E')) :
    ∃ es, ChainHistory mf sr changes (ks ++ [k]) es ∧
      ∀ c f, c < k.output.channelCount → f < k.output.frameCount → o.sample? c f = some
        (if c < n ∧ c < mc then k.input.sampleOrSilence c f *
          (ds.map fun d => (gainTrack sr d.id d.state es).getD (framesIn ks + f) 0).prod else 0) := by
  obtain ⟨es, y, ds', h1, h2, h3⟩ := C81_stream _ true ds hne mf mc sr hm changes ks k hks hp E E' hE o h
  refine ⟨es, h1, ?_⟩
  intro c f hc hf
  have ht := history_total h1
  rw [Gain.framesIn_append] at ht
  rw [h3 c f hc hf, gain_run hz ho sr n es ds hne hd _ _ _ h2 c _ (by omega)]
  by_cases hcm : c < mc
  · by_cases hcn : c < n
    · rw [if_pos hcm, if_pos hcn, if_pos ⟨hcn, hcm⟩]
      congr 2
      rw [sessionInput_append]
      simp only [followed]
      rw [if_neg (by omega : ¬ framesIn ks + f < framesIn ks), Nat.add_sub_cancel_left, if_pos hf, callInput,
        if_pos ⟨rfl, hcm⟩]
    · rw [if_pos hcm, if_neg hcn, if_neg (fun h => hcn h.1)]
  · rw [if_neg hcm, if_neg (fun h => hcm h.2)]

/-! ## Such sessions exist -/

theorem acyclic_of_rank {h : Holding} (r : Id → Nat) (hr : ∀ l ∈ h.links, r l.src < r l.dst) : h.Acyclic := by
  intro n hn
  have : ∀ a b, Relation.TransGen h.Joined a b → r a < r b := by
    intro a b hab
    induction hab with
    | single hj => obtain ⟨l, hl, rfl, rfl⟩ := hj; exact hr l hl
    | tail _ hj ih => obtain ⟨l, hl, rfl, rfl⟩ := hj; exact ih.trans (hr l hl)
  exact lt_irrefl _ (this n n hn)

theorem creates_allowed (mc : Nat) (ds : List (Dsp P)) : ∀ h : Holding, (∀ d ∈ ds, d.inputCount ≤ mc ∧ d.outputCount ≤ mc) →
    (h.nodes.map Held.id ++ ds.map Dsp.id).Nodup → h.nodes.length + ds.length ≤ 1022 →
    Allowed (fun h c => h.Typed c ∧ h.Careful mc c) h
      (ds.map fun d => (ApiCall.create d.id d.inputCount d.outputCount d.state : ApiCall P C)) ∧
    (h.afterAll (ds.map fun d => (ApiCall.create d.id d.inputCount d.outputCount d.state : ApiCall P C))) =
      ⟨h.nodes ++ ds.map (fun d => ⟨d.id, d.inputCount, d.outputCount⟩), h.links⟩ := by
  induction ds with
  | nil => intro h _ _ _; exact ⟨trivial, by simp [Holding.afterAll]⟩
  | cons d ds ih =>
    intro h hd hn hl
    have hn2 := hn
    rw [List.map_cons, List.nodup_append] at hn
    obtain ⟨n1, n2, n3⟩ := hn
    obtain ⟨i1, i2⟩ := ih (h.after (.create d.id d.inputCount d.outputCount d.state : ApiCall P C))
      (fun e he => hd e (by simp [he])) (by
        simp only [Holding.after, List.map_append, List.map_cons, List.map_nil, List.append_assoc]
        simpa using hn2) (by
        simp only [Holding.after, List.length_append, List.length_cons, List.length_nil] at *
        omega)
    refine ⟨⟨⟨?_, ?_⟩, i1⟩, ?_⟩
    · intro x hx
      exact n3 _ (List.mem_map_of_mem hx) _ List.mem_cons_self
    · refine ⟨(hd d (by simp)).1, (hd d (by simp)).2, ?_⟩
      simp only [List.length_cons] at hl
      omega
    · rw [List.map_cons, Holding.afterAll, List.foldl_cons]
      rw [Holding.afterAll] at i2
      rw [i2]
      simp [Holding.after]

theorem links_allowed (mc : Nat) (r : Id → Nat) (xs : List (Dsp P × Dsp P)) : ∀ h : Holding,
    (∀ l ∈ h.links, r l.src < r l.dst) → (∀ x ∈ xs, r x.1.id < r x.2.id) →
    (h.links.map Link.dst ++ xs.map fun x => x.2.id).Nodup →
    (∀ x ∈ xs, h.Holds ⟨x.1.id, x.1.outputCount⟩ ∧ h.Holds ⟨x.2.id, x.2.outputCount⟩) →
    Allowed (fun h c => h.Typed c ∧ h.Careful mc c) h (xs.map fun x =>
      (ApiCall.connectTo ⟨x.1.id, x.1.outputCount⟩ ⟨x.2.id, x.2.outputCount⟩ : ApiCall P C)) ∧
    (h.afterAll (xs.map fun x => (ApiCall.connectTo ⟨x.1.id, x.1.outputCount⟩ ⟨x.2.id, x.2.outputCount⟩ :
      ApiCall P C))).nodes = h.nodes := by
  induction xs with
  | nil => intro h _ _ _ _; exact ⟨trivial, rfl⟩
  | cons x xs ih =>
    intro h h1 h2 h3 h4
    have hr : ∀ l ∈ (h.after (.connectTo ⟨x.1.id, x.1.outputCount⟩ ⟨x.2.id, x.2.outputCount⟩ : ApiCall P C)).links,
        r l.src < r l.dst := by
      intro l hl
      simp only [Holding.after, List.mem_append, List.mem_singleton] at hl
      rcases hl with hl | rfl
      · exact h1 l hl
      · exact h2 x (by simp)
    obtain ⟨i1, i2⟩ := ih (h.after (.connectTo ⟨x.1.id, x.1.outputCount⟩ ⟨x.2.id, x.2.outputCount⟩ : ApiCall P C)) hr
      (fun y hy => h2 y (by simp [hy])) (by
        simp only [Holding.after, List.map_append, List.map_cons, List.map_nil, List.append_assoc]
        simpa using h3) (fun y hy => h4 y (by simp [hy]))
    refine ⟨⟨⟨h4 x (by simp), ?_, acyclic_of_rank r hr⟩, i1⟩, i2⟩
    rintro ⟨l, hl, _, hl2⟩
    rw [List.nodup_append] at h3
    exact h3.2.2 _ (List.mem_map_of_mem hl) _ (by simp) hl2

theorem pairs_rank {ds : List (Dsp P)} (hn : (ds.map Dsp.id).Nodup) : ∀ x ∈ pairs ds,
    (ds.map Dsp.id).idxOf x.1.id < (ds.map Dsp.id).idxOf x.2.id ∧ x.1 ∈ ds ∧ x.2 ∈ ds := by
  induction ds with
  | nil => intro x hx; cases hx
  | cons d ds ih =>
    cases ds with
    | nil => intro x hx; cases hx
    | cons e ds =>
      intro x hx
      rw [pairs_cons] at hx
      have hn2 := hn
      rw [List.map_cons, List.nodup_cons] at hn2
      rcases List.mem_cons.mp hx with rfl | hx
      · refine ⟨?_, by simp, by simp⟩
        have hne : d.id ≠ e.id := fun h => hn2.1 (by rw [h]; simp)
        simp [List.idxOf_cons, hne]
      · obtain ⟨j1, j2, j3⟩ := ih hn2.2 x hx
        have k1 : d.id ≠ x.1.id := fun h => hn2.1 (h ▸ List.mem_map_of_mem j2)
        have k2 : d.id ≠ x.2.id := fun h => hn2.1 (h ▸ List.mem_map_of_mem j3)
        refine ⟨?_, by simp [List.mem_cons.mp j2], by simp [List.mem_cons.mp j3]⟩
        rw [List.map_cons, List.idxOf_cons_ne _ k1, List.idxOf_cons_ne _ k2]
        omega

theorem program_allowed (fromInput : Bool) (mc : Nat) (ds : List (Dsp P)) (hne : ds ≠ [])
    (hd : ∀ d ∈ ds, d.inputCount ≤ mc ∧ d.outputCount ≤ mc) (hn : (ds.map Dsp.id).Nodup) (hl : ds.length ≤ 1022)
    (cs : List (Id × C)) (hcs : ∀ x ∈ cs, x.1 ∈ ds.map Dsp.id) :
    ∃ program : List (ApiCall P C), program.map ApiCall.command =
        (chainProgram fromInput ds).map ApiCall.command ++ cs.map (fun x => .change x.1 x.2) ∧
      Allowed (fun h c => h.Typed c ∧ h.Careful mc c) Holding.empty program ∧ drops program = 0 := by
  obtain ⟨d, ds, rfl⟩ := List.exists_cons_of_ne_nil hne
  obtain ⟨a1, a2⟩ := creates_allowed (C := C) mc (d :: ds) Holding.empty hd (by simpa [Holding.empty] using hn)
    (by simpa [Holding.empty] using hl)
  rw [Holding.empty, List.nil_append] at a2
  have hholds : ∀ (h : Holding), h.nodes = (d :: ds).map (fun d => ⟨d.id, d.inputCount, d.outputCount⟩) →
      ∀ e ∈ d :: ds, h.Holds ⟨e.id, e.outputCount⟩ := by
    intro h hh e he
    exact ⟨⟨e.id, e.inputCount, e.outputCount⟩, by rw [hh]; exact List.mem_map.mpr ⟨e, he, rfl⟩, rfl, rfl⟩
  obtain ⟨b1, b2⟩ := links_allowed (C := C) mc ((d :: ds).map Dsp.id).idxOf (pairs (d :: ds))
    ⟨(d :: ds).map (fun d => ⟨d.id, d.inputCount, d.outputCount⟩), []⟩ (by simp)
    (fun x hx => (pairs_rank hn x hx).1) (by
      rw [List.map_nil, List.nil_append, pairs_snd]
      exact hn.sublist (List.tail_sublist _))
    (fun x hx => ⟨hholds _ rfl _ (pairs_rank hn x hx).2.1, hholds _ rfl _ (pairs_rank hn x hx).2.2⟩)
  have hch : ∀ (cs : List (Id × C)) (h : Holding), (∀ x ∈ cs, x.1 ∈ (d :: ds).map Dsp.id) →
      h.nodes = (d :: ds).map (fun d => ⟨d.id, d.inputCount, d.outputCount⟩) →
      ∃ as : List (ApiCall P C), as.map ApiCall.command = cs.map (fun x => .change x.1 x.2) ∧
        Allowed (fun h c => h.Typed c ∧ h.Careful mc c) h as ∧ drops as = 0 := by
    intro cs
    induction cs with
    | nil => intro h _ _; exact ⟨[], rfl, trivial, rfl⟩
    | cons x cs ih =>
      intro h hx hh
      obtain ⟨e, he, hee⟩ := List.mem_map.mp (hx x (by simp))
      obtain ⟨as, s1, s2, s3⟩ := ih h (fun y hy => hx y (by simp [hy])) hh
      refine ⟨.change ⟨e.id, e.outputCount⟩ x.2 :: as, ?_, ⟨⟨hholds h hh e he, trivial⟩, s2⟩, ?_⟩
      · rw [List.map_cons, s1, List.map_cons, ApiCall.command, hee]
      · rw [drops, List.countP_cons_of_neg (by simp)]; exact s3
  have hdrop : drops (chainProgram (C := C) fromInput (d :: ds)) = 0 := by
    rw [drops, List.countP_eq_zero]
    intro c hc
    rw [chainProgram, connectNodes_stages, Option.getD_some] at hc
    simp only [List.mem_append, List.mem_map, List.mem_singleton] at hc
    rcases hc with (⟨e, _, rfl⟩ | (hc | ⟨e, _, rfl⟩) | rfl) | rfl
    · simp
    · cases fromInput with
      | false => cases hc
      | true => rw [if_pos rfl, List.mem_singleton] at hc; subst hc; simp
    · simp
    · simp
    · simp
  obtain ⟨as, s1, s2, s3⟩ := hch cs (Holding.empty.afterAll (chainProgram (C := C) fromInput (d :: ds))) hcs (by
    rw [chainProgram, connectNodes_stages, Option.getD_some]
    cases fromInput with
    | false =>
      simp only [Holding.afterAll, List.foldl_append, Bool.false_eq_true, if_false, List.nil_append] at *
      rw [Holding.empty, a2]
      simpa [Holding.after] using b2
    | true =>
      simp only [Holding.afterAll, List.foldl_append, if_true, List.foldl_cons, List.foldl_nil] at *
      rw [Holding.empty, a2]
      simpa [Holding.after] using b2)
  refine ⟨chainProgram fromInput (d :: ds) ++ as, by rw [List.map_append, s1], ?_, by rw [drops_append, hdrop, s3]⟩
  rw [allowed_append]
  refine ⟨?_, s2⟩
  rw [chainProgram, connectNodes_stages, Option.getD_some, List.append_assoc, List.append_assoc, List.append_assoc,
    allowed_append, allowed_append, allowed_append]
  rw [show Holding.empty.afterAll ((d :: ds).map fun d => (ApiCall.create d.id d.inputCount d.outputCount d.state :
    ApiCall P C)) = _ from a2]
  have hin : Holding.afterAll ⟨(d :: ds).map (fun d => (⟨d.id, d.inputCount, d.outputCount⟩ : Held)), []⟩
      (if fromInput then [(.connectToInput ⟨d.id, d.outputCount⟩ : ApiCall P C)] else []) =
      ⟨(d :: ds).map (fun d => ⟨d.id, d.inputCount, d.outputCount⟩), []⟩ := by
    cases fromInput <;> rfl
  refine ⟨a1, ?_, ?_, ?_⟩
  · cases fromInput with
    | false => trivial
    | true => exact ⟨⟨hholds _ rfl d (by simp), trivial⟩, trivial⟩
  · rw [hin]; exact b1
  · rw [hin]
    exact ⟨⟨hholds _ b2 _ (List.getLast_mem _), trivial⟩, ⟨trivial, trivial⟩, trivial⟩

theorem playsChain_history {fromInput : Bool} {ds : List (Dsp P)} {changes : Nat → List (Id × C)}
    (ks : List (Call S P C)) : PlaysChain fromInput ds changes ks → history ks <+:
      (chainProgram fromInput ds).map ApiCall.command ++
        ((List.range ks.length).flatMap changes).map fun x => .change x.1 x.2 := by
  induction ks using List.reverseRecOn with
  | nil => intro _; exact List.nil_prefix
  | append_singleton ks k ih =>
    intro hp
    have hk := hp ks.length k (by simp)
    have hh : history (ks ++ [k]) = history ks ++ k.commands.map Prod.fst := by simp [history]
    have hp' : PlaysChain fromInput ds changes ks := fun i k' hk' => hp i k' (by
      rw [List.getElem?_append_left (by by_contra hn; rw [List.getElem?_eq_none (by omega)] at hk'; cases hk')]
      exact hk')
    have heq : ∀ ks : List (Call S P C), PlaysChain fromInput ds changes ks → ks ≠ [] → history ks =
        (chainProgram fromInput ds).map ApiCall.command ++
        ((List.range ks.length).flatMap changes).map fun x => .change x.1 x.2 := by
      intro ks
      induction ks using List.reverseRecOn with
      | nil => intro _ h; exact absurd rfl h
      | append_singleton ks k ih =>
        intro hp _
        have hk := hp ks.length k (by simp)
        have hp' : PlaysChain fromInput ds changes ks := fun i k' hk' => hp i k' (by
          rw [List.getElem?_append_left (by by_contra hn; rw [List.getElem?_eq_none (by omega)] at hk'; cases hk')]
          exact hk')
        have hh : history (ks ++ [k]) = history ks ++ k.commands.map Prod.fst := by simp [history]
        simp only [ApiCall.command] at hk
        rw [hh, hk]
        by_cases h0 : ks = []
        · subst h0; simp [history]
        · rw [ih hp' h0, if_neg (by simpa using h0), List.nil_append, List.append_assoc, ← List.map_append]
          simp [List.range_succ]
    rw [heq _ hp (by simp)]

/-- C81: all process calls of such a session succeed, for up to 1022 nodes that are not wider than the engine and can
be rendered (`Healthy`). -/
theorem C81_runs [AddZeroClass S] (ops : NodeOps S P C) (mf mc sr : Nat) (hm : 0 < mf) (I : Dsp P → Prop)
    (A : Id → C → Prop) (H : Healthy ops mf sr I A) (fromInput : Bool) (ds : List (Dsp P)) (hne : ds ≠ [])
    (hI : ∀ d ∈ ds, I d) (hd : ∀ d ∈ ds, d.inputCount ≤ mc ∧ d.outputCount ≤ mc)
    (hn : (ds.map Dsp.id).Nodup) (hl : ds.length ≤ 1022) (changes : Nat → List (Id × C))
    (hcs : ∀ i, ∀ x ∈ changes i, x.1 ∈ ds.map Dsp.id ∧ A x.1 x.2) (ks : List (Call S P C)) (hks : ∀ l ∈ ks, l.Valid)
    (hp : PlaysChain fromInput ds changes ks) : ∃ E, calls ops (new sr mc mf) ks = .ok E := by
  have hcs' : ∀ x ∈ (List.range ks.length).flatMap changes, x.1 ∈ ds.map Dsp.id ∧ A x.1 x.2 := by
    intro x hx
    obtain ⟨i, _, hi⟩ := List.mem_flatMap.mp hx
    exact hcs i x hi
  obtain ⟨program, p1, p2, p3⟩ := program_allowed fromInput mc ds hne hd hn hl
    ((List.range ks.length).flatMap changes) (fun x hx => (hcs' x hx).1)
  refine C79_healthy_programs_run_partial ops mf mc sr hm I A H program ?_ p2 (by omega) ks hks
    (by rw [p1]; exact playsChain_history ks hp)
  intro c hc
  have hm : c.command ∈ program.map ApiCall.command := List.mem_map_of_mem hc
  rw [p1, List.mem_append] at hm
  rcases hm with hm | hm
  · obtain ⟨a, ha, he⟩ := List.mem_map.mp hm
    rw [chainProgram, List.mem_append, List.mem_append] at ha
    obtain ⟨d, ds, rfl⟩ := List.exists_cons_of_ne_nil hne
    rcases ha with (ha | ha) | ha
    · obtain ⟨e, he', rfl⟩ := List.mem_map.mp ha
      cases c <;> simp only [ApiCall.command, Command.addDsp.injEq, Dsp.mk.injEq, reduceCtorEq] at he
      obtain ⟨rfl, rfl, rfl, rfl⟩ := he
      exact hI e he'
    · rw [connectNodes_stages, Option.getD_some] at ha
      simp only [List.mem_append, List.mem_map, List.mem_singleton] at ha
      rcases ha with (ha | ⟨x, _, rfl⟩) | rfl
      · cases fromInput with
        | false => cases ha
        | true =>
          rw [if_pos rfl, List.mem_singleton] at ha
          subst ha
          cases c <;> simp only [ApiCall.command, reduceCtorEq] at he <;> trivial
      · cases c <;> simp only [ApiCall.command, reduceCtorEq] at he <;> trivial
      · cases c <;> simp only [ApiCall.command, reduceCtorEq] at he <;> trivial
    · rw [List.mem_singleton] at ha
      subst ha
      cases c <;> simp only [ApiCall.command, reduceCtorEq] at he <;> trivial
  · obtain ⟨x, hx, he⟩ := List.mem_map.mp hm
    cases c <;> simp only [ApiCall.command, Command.change.injEq, reduceCtorEq] at he
    rw [ApiCall.Healthy, ← he.1, ← he.2]
    exact (hcs' x hx).2

/-- Two gain nodes in a row, for examples. -/
noncomputable def twoGains : List (Dsp (RealtimeParameter ℝ)) := [⟨1, 1, 1, Gain.initial⟩, ⟨2, 1, 1, Gain.initial⟩]

/-- A process call that plays ones through them, with the second gain set to 3 from the fifth frame on. -/
noncomputable def twoGainsCall : GainCall :=
  ⟨((chainProgram true twoGains).map ApiCall.command ++ [Command.change 2 (⟨3, Timestamp.fromSamples 4 48000, .immediate⟩ : ParameterChange ℝ)]).map
    fun x => (x, .plain), Gain.ones 10, Gain.ones 10, fun _ => Env.plain⟩

/-- The hypotheses of the theorems above for these. -/
example : ∃ (E E' : Processor ℝ (RealtimeParameter ℝ)) (o : Buf ℝ),
    (∀ l ∈ [] ++ [twoGainsCall], l.Valid) ∧
    PlaysChain true twoGains (fun i => if i = 0 then [(2, ⟨3, Timestamp.fromSamples 4 48000, .immediate⟩)] else [])
      ([] ++ [twoGainsCall]) ∧ calls (Gain.ops (fun x => x = 0) (fun x => x = 1)) (new 48000 2 4) [] = .ok E ∧
    E.process (Gain.ops (fun x => x = 0) (fun x => x = 1)) twoGainsCall.env twoGainsCall.commands twoGainsCall.input
      twoGainsCall.output = .ok (o, E') := by
  have hv : ∀ l ∈ [] ++ [twoGainsCall], l.Valid := by
    intro l hl
    rw [List.nil_append, List.mem_singleton] at hl
    subst hl
    refine ⟨?_, ?_, trivial, le_refl _, ?_⟩
    · simp [twoGainsCall, Gain.ones, Buf.WF]
    · simp [twoGainsCall, Gain.ones, Buf.WF]
    · intro x hx
      obtain ⟨y, hy, rfl⟩ := List.mem_map.mp hx
      rw [List.mem_append, List.mem_map] at hy
      rcases hy with ⟨a, _, rfl⟩ | hy
      · exact command_api a
      · rw [List.mem_singleton] at hy; subst hy; trivial
  have hp : PlaysChain true twoGains (fun i => if i = 0 then [(2, ⟨3, Timestamp.fromSamples 4 48000, .immediate⟩)]
      else []) ([] ++ [twoGainsCall]) := by
    intro i k hk
    match i with
    | 0 =>
      simp only [List.nil_append, List.getElem?_cons_zero, Option.some.injEq] at hk
      subst hk
      simp [twoGainsCall, Function.comp_def, ApiCall.command]
    | i + 1 => simp at hk
  obtain ⟨E', hE⟩ := C81_runs (Gain.ops (fun x => x = 0) (fun x => x = 1)) 4 2 48000 (by norm_num) _ _
    (healthy_of_total 4 48000 (fun s b => ⟨_, rfl⟩) (fun s r => ⟨_, rfl⟩)) true twoGains (by simp [twoGains])
    (fun _ _ => trivial) (by simp [twoGains]) (by simp [twoGains])
    (by simp [twoGains]) _ (by
      intro i x hx
      split at hx
      · rw [List.mem_singleton] at hx; subst hx; exact ⟨by simp [twoGains], trivial⟩
      · cases hx) _ hv hp
  obtain ⟨o, E1, h3, _⟩ := calls_cons hE
  exact ⟨_, E1, o, hv, hp, rfl, h3⟩

end Chain
end Rawdio
