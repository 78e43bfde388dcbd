import Verif.Lemmas.EngineLoop
import Verif.Lemmas.RenderBlock
import Verif.Props.Buffers2

/-! Helper lemmas about the engine between process calls. -/

namespace Rawdio

variable {S P C : Type}

namespace Command

theorem latest_append {α : Type} (f : Command P C → Option α) (cs ds : List (Command P C)) :
    latest f (cs ++ ds) = (latest f ds).or (latest f cs) := by
  unfold latest
  rw [List.reverse_append, List.findSome?_append]

theorem latest_singleton {α : Type} (f : Command P C → Option α) (c : Command P C) :
    latest f [c] = f c := by
  unfold latest
  cases h : f c <;> simp [h]

end Command

namespace Processor

open DspGraph

/-- What a command does to the parts of the engine outside the graph. -/
theorem apply_frame {ops : NodeOps S P C} {E E' : Processor S P} {c : Command P C × Luck}
    (h : E.apply ops c = .ok E') :
    E'.sampleRate = E.sampleRate ∧ E'.maxFrames = E.maxFrames ∧
    E'.framePosition = E.framePosition ∧ E'.currentTime = E.currentTime ∧
    E'.started = (Command.transport c.1).getD E.started ∧
    E'.graph.outputEndpoint.map Endpoint.dsp =
      (Command.toOutput c.1).or (E.graph.outputEndpoint.map Endpoint.dsp) ∧
    E'.graph.inputEndpoint.map Endpoint.dsp =
      (Command.toInput c.1).or (E.graph.inputEndpoint.map Endpoint.dsp) := by
  obtain ⟨c, luck⟩ := c
  cases c with
  | start => injection h with h; subst h; exact ⟨rfl, rfl, rfl, rfl, rfl, rfl, rfl⟩
  | stop => injection h with h; subst h; exact ⟨rfl, rfl, rfl, rfl, rfl, rfl, rfl⟩
  | addDsp d =>
    obtain ⟨G, h1, h2⟩ := bind_ok h
    injection h2 with h2
    subst h2
    obtain ⟨g, _, h3⟩ := bind_ok h1
    injection h3 with h3
    subst h3
    exact ⟨rfl, rfl, rfl, rfl, rfl, rfl, rfl⟩
  | removeDsp i =>
    obtain ⟨G, h1, h2⟩ := bind_ok h
    injection h2 with h2
    subst h2
    obtain ⟨⟨g, d⟩, _, h3⟩ := bind_ok h1
    cases d with
    | none => injection h3 with h3; subst h3; exact ⟨rfl, rfl, rfl, rfl, rfl, rfl, rfl⟩
    | some d =>
      simp only at h3
      split_ifs at h3
      injection h3 with h3; subst h3; exact ⟨rfl, rfl, rfl, rfl, rfl, rfl, rfl⟩
  | change i r =>
    obtain ⟨G, h1, h2⟩ := bind_ok h
    injection h2 with h2
    subst h2
    unfold changeParameter at h1
    split at h1
    · injection h1 with h1; subst h1; exact ⟨rfl, rfl, rfl, rfl, rfl, rfl, rfl⟩
    · obtain ⟨s, _, h3⟩ := bind_ok h1
      injection h3 with h3; subst h3; exact ⟨rfl, rfl, rfl, rfl, rfl, rfl, rfl⟩
  | addConnection k =>
    obtain ⟨G, h1, h2⟩ := bind_ok h
    injection h2 with h2
    subst h2
    obtain ⟨g, _, h3⟩ := bind_ok h1
    injection h3 with h3
    subst h3
    exact ⟨rfl, rfl, rfl, rfl, rfl, rfl, rfl⟩
  | removeConnection k => injection h with h; subst h; exact ⟨rfl, rfl, rfl, rfl, rfl, rfl, rfl⟩
  | connectToOutput ep => injection h with h; subst h; exact ⟨rfl, rfl, rfl, rfl, rfl, rfl, rfl⟩
  | connectToInput ep => injection h with h; subst h; exact ⟨rfl, rfl, rfl, rfl, rfl, rfl, rfl⟩

/-- The same for a list of commands. -/
theorem processCommands_frame {ops : NodeOps S P C} (cs : List (Command P C × Luck)) :
    ∀ (E E' : Processor S P), E.processCommands ops cs = .ok E' →
    E'.sampleRate = E.sampleRate ∧ E'.maxFrames = E.maxFrames ∧
    E'.framePosition = E.framePosition ∧ E'.currentTime = E.currentTime ∧
    E'.started = (Command.latest Command.transport (cs.map Prod.fst)).getD E.started ∧
    E'.graph.outputEndpoint.map Endpoint.dsp =
      (Command.latest Command.toOutput (cs.map Prod.fst)).or
        (E.graph.outputEndpoint.map Endpoint.dsp) ∧
    E'.graph.inputEndpoint.map Endpoint.dsp =
      (Command.latest Command.toInput (cs.map Prod.fst)).or
        (E.graph.inputEndpoint.map Endpoint.dsp) := by
  induction cs with
  | nil =>
    intro E E' h
    injection h with h
    subst h
    exact ⟨rfl, rfl, rfl, rfl, rfl, rfl, rfl⟩
  | cons c cs ih =>
    intro E E' h
    obtain ⟨E1, h1, h2⟩ := foldlM_cons_ok h
    obtain ⟨a1, a2, a3, a4, a5, a6, a7⟩ := apply_frame h1
    obtain ⟨b1, b2, b3, b4, b5, b6, b7⟩ := ih _ _ h2
    have hl : ∀ {α : Type} (f : Command P C → Option α),
        Command.latest f ((c :: cs).map Prod.fst) =
          (Command.latest f (cs.map Prod.fst)).or (f c.1) := by
      intro α f
      rw [List.map_cons, show c.1 :: cs.map Prod.fst = [c.1] ++ cs.map Prod.fst from rfl,
        Command.latest_append, Command.latest_singleton]
    refine ⟨b1.trans a1, b2.trans a2, b3.trans a3, b4.trans a4, ?_, ?_, ?_⟩
    · rw [b5, a5, hl]
      cases Command.latest Command.transport (cs.map Prod.fst) <;> rfl
    · rw [b6, a6, hl, Option.or_assoc]
    · rw [b7, a7, hl, Option.or_assoc]

/-- The graph writes only the slice it is given. -/
theorem process_writesSlice [Zero S] [Add S] {D : Dims} {ops : NodeOps S P C} {env : Env}
    {q : Patch Connection} {G G' : DspGraph S P} {input p o' : Buf S} {r : Range} {t : Int}
    (hD : 0 < D.fr) (hG : Inv D G q) (hv : ValidBlock input (.slice p r true))
    (h : G.process ops env input (.slice p r true) t = .ok (o', G')) :
    ∃ sig, Done D ops q G input (.slice p r true) t o' G' sig ∧
    ∃ p', o' = .slice p' r true ∧ p.SameShape p' ∧ p'.WF ∧ p'.Writable ∧
      ∀ c f, ¬ (r.channel ≤ c ∧ c < r.channel + r.channelCount ∧ r.frame ≤ f ∧
        f < r.frame + r.frameCount) → p'.sample? c f = p.sample? c f := by
  obtain ⟨sig, hd⟩ := process_ok hG hv.inWF hv.outWF hv.writable hv.nonempty hD hv.enough h
  refine ⟨sig, hd, ?_⟩
  have hsh := hd.shape
  cases o' with
  | owned => exact absurd hsh (by simp [Buf.SameShape])
  | slice p' r' m' =>
    obtain ⟨h1, h2, h3⟩ := hsh
    subst h2
    subst h3
    exact ⟨p', rfl, h1, hd.wf.1, hd.writable.2, fun c f hcf => hd.rest p r true rfl c f hcf⟩

theorem runGraph_writesSlice [Zero S] [Add S] (ops : NodeOps S P C) (env : Nat → Env)
    {mf mc sr : Nat} (hm : 0 < mf) :
    WritesSlice (DspGraph.Reachable ops mf mc sr) (runGraph ops env) := by
  intro offset G input p r t o' G' hG hv h
  obtain ⟨q, hq⟩ := reachable_inv hm hG
  obtain ⟨_, _, h2⟩ := process_writesSlice (D := ⟨mc, mf, sr⟩) hm hq hv h
  exact ⟨.process (env offset) _ _ _ _ hG hv h, h2⟩

/-- The loop over the blocks, in terms of the specification. -/
theorem renderedLoop [AddZeroClass S] {ops : NodeOps S P C} {env : Nat → Env} {mf mc sr : Nat}
    (hm : 0 < mf) {q : Patch Connection} {now : Int} {input : Buf S} (hi : input.WF) :
    ∀ (fuel offset : Nat) (G : DspGraph S P) (output o' : Buf S) (G' : DspGraph S P),
    DspGraph.Reachable ops mf mc sr G → Inv ⟨mc, mf, sr⟩ G q → output.WF → output.Writable →
    output.frameCount ≤ input.frameCount → offset ≤ output.frameCount →
    (∀ c f, c < output.channelCount → offset ≤ f → f < output.frameCount →
      output.sample? c f = some 0) →
    processLoop (runGraph ops env) mf sr now input fuel offset G output = .ok (o', G') →
    DspGraph.Reachable ops mf mc sr G' ∧ Inv ⟨mc, mf, sr⟩ G' q ∧
    G'.inputEndpoint = G.inputEndpoint ∧ G'.outputEndpoint = G.outputEndpoint ∧
    output.SameShape o' ∧ o'.WF ∧ o'.Writable ∧
    (∀ c f, f < offset → o'.sample? c f = output.sample? c f) ∧
    RenderedCall ops q mf output.frameCount output.channelCount mc sr now input
      (G.inputEndpoint.map Endpoint.dsp) (G.outputEndpoint.map Endpoint.dsp) o'.sample?
      offset G.graph.getNode G'.graph.getNode ∧
    (offset < output.frameCount → (∃ order, q.ValidOrder order) ∧
      ∀ i d, G.graph.getNode i = some d → d.inputCount ≤ mc ∧ d.outputCount ≤ mc) := by
  intro fuel
  induction fuel with
  | zero => intro offset G output o' G' _ _ _ _ _ _ _ h; cases h
  | succ fuel ih =>
    intro offset G output o' G' hR hG hw hmo he hoff hz h
    by_cases hlt : offset < output.frameCount
    · rw [processLoop_step he hlt] at h
      obtain ⟨⟨o1, G1⟩, h1, h2⟩ := bind_ok h
      have hvb := validBlock_slice (mf := mf) hi hw hmo he hlt hm
      obtain ⟨_, hd, p', rfl, hsh, hw', hm', hrest⟩ :=
        process_writesSlice (D := ⟨mc, mf, sr⟩) hm hG hvb h1
      obtain ⟨sig, hren, hout, _⟩ := block_spec hm hR hG.rep.shows hvb h1
      have hfc := hsh.frameCount
      have hcc := hsh.channelCount
      obtain ⟨c1, c2, c3, c4, c5, c6, c7, c8, c9, _⟩ := ih _ G1 p' _ _
        (.process (env offset) _ _ _ _ hR hvb h1) hd.inv hw' hm' (by rw [← hfc]; exact he)
        (by omega) (by
          intro c f hc hf hf2
          rw [hrest c f (by simp only; omega)]
          exact hz c f (by omega) (by omega) (by omega)) h2
      obtain ⟨s1, s2, _⟩ := hd.same
      refine ⟨c1, c2, c3.trans s1, c4.trans s2, hsh.trans c5, c6, c7, ?_, ?_, ?_⟩
      · intro c f hf
        rw [c8 c f (by omega)]
        exact hrest c f (by simp only; omega)
      · have hmin : min (min (output.frameCount - offset) mf) mf =
            min (output.frameCount - offset) mf := by omega
        have hren' : Rendered ops q G.graph.getNode (min (output.frameCount - offset) mf) sr
            (Timestamp.incrementedBySamples now offset sr)
            (q.received (arrivesFromSystem (G.inputEndpoint.map Endpoint.dsp)
              (.slice input ⟨0, offset, input.channelCount, min (output.frameCount - offset) mf⟩ false)
              (min input.channelCount mc) (min (output.frameCount - offset) mf))) sig
              G1.graph.getNode := by
          have := hren
          simp only [Buf.fc_slice, Buf.cc_slice, hmin] at this
          exact this
        refine .block offset (min (output.frameCount - offset) mf) _ _ _
          (.slice input ⟨0, offset, input.channelCount, min (output.frameCount - offset) mf⟩ false)
          sig hlt (Nat.min_comm _ _) rfl ?_ hren' ?_ ?_
        · intro c f hf
          exact slice_sample _ _ _ _ _ hf
        · intro c f hc hf
          rw [c8 c (offset + f) (by omega)]
          have e1 := slice_sample (b := p') offset (min (output.frameCount - offset) mf) true c f hf
          rw [← hcc] at e1
          rw [← e1, hout c f]
          simp only [Buf.fc_slice, Buf.cc_slice, hmin]
          rw [slice_sample (b := output) offset _ true c f hf, hz c _ hc (by omega) (by omega)]
          cases hep : G.outputEndpoint with
          | none => rfl
          | some ep =>
            simp only [Option.bind_some, Option.map_some]
            by_cases hn : ep.dsp ∈ q.nodes
            · simp only [hn, if_true, outputSample, true_and, hf, and_true]
              by_cases hcm : c < mc
              · rw [if_pos (by omega), if_pos hcm]
              · rw [if_neg (by omega), if_neg hcm]
            · simp only [hn, if_false, outputSample, false_and]
        · rw [s1, s2, ← hfc, ← hcc] at c9
          exact c9
      · intro _
        refine ⟨⟨_, (hd.inv.sorted hd.clean).1⟩, ?_⟩
        intro i d hid
        obtain ⟨d', _, _, r1, _, _, _, r5, r6, _⟩ := hd.ran i ((hG.rep.shows.nodes i).mpr ⟨d, hid⟩)
        rw [hid] at r1
        injection r1 with r1
        subst r1
        exact ⟨r6, r5⟩
    · rw [processLoop_done hlt] at h
      injection h with h
      obtain ⟨rfl, rfl⟩ := Prod.mk.inj h
      exact ⟨hR, hG, rfl, rfl, Buf.SameShape.refl _, hw, hmo, fun _ _ _ => rfl,
        .done _ _ (by omega), fun h => absurd h hlt⟩

/-- The invariant of an engine between calls. -/
structure EInv [Zero S] [Add S] (ops : NodeOps S P C) (mf mc sr : Nat) (E : Processor S P) : Prop where
  reach : DspGraph.Reachable ops mf mc sr E.graph
  ids : ∀ k e, E.graph.graph.getEdge k = some e → k < E.nextId
  frames : E.maxFrames = mf
  rate : E.sampleRate = sr

theorem einv_new [Zero S] [Add S] (ops : NodeOps S P C) (mf mc sr : Nat) :
    EInv ops mf mc sr (new sr mc mf) :=
  ⟨.new, (by intro k e h; cases h), rfl, rfl⟩

/-- An edit request adds at most its own connection identity. -/
theorem exec_ids {g g' : Graph (Dsp P) Connection} {p : Patch Connection} (h : Graph.Rep g p)
    (σ : IterOrder Id) (c : GraphCmd (Dsp P) Connection)
    (hk : ∀ k a b d, c = .connect k a b d → g.getEdge k = none) (hg : g.exec σ c = .ok g')
    (k : Id) (e : Edge Connection) (he : g'.getEdge k = some e) :
    (∃ e', g.getEdge k = some e') ∨ ∃ a b d, c = .connect k a b d := by
  have hs := h.shows
  obtain ⟨p', hst, hr⟩ := Graph.exec_step h σ c (by
    intro k a b d hc x hx hxk
    obtain ⟨e, h1, _⟩ := hs.ends x hx
    rw [hxk, hk k a b d hc] at h1
    cases h1) hg
  obtain ⟨x, hx, hxk⟩ := (hr.shows.conns k).mpr ⟨e, he⟩
  rcases Graph.step_ids hst x hx with h1 | ⟨k', a, b, d, h1, h2⟩
  · exact .inl ((hs.conns k).mp ⟨x, h1, hxk⟩)
  · rw [hxk] at h2
    subst h2
    exact .inr ⟨a, b, d, h1⟩

theorem apply_inv [Zero S] [Add S] {ops : NodeOps S P C} {mf mc sr : Nat} (hm : 0 < mf)
    {E E' : Processor S P} (hE : EInv ops mf mc sr E) {c : Command P C × Luck} (hc : c.1.Api)
    (h : E.apply ops c = .ok E') : EInv ops mf mc sr E' := by
  obtain ⟨f1, f2, _⟩ := apply_frame h
  obtain ⟨q, hq⟩ := reachable_inv hm hE.reach
  obtain ⟨c, luck⟩ := c
  cases c with
  | start => injection h with h; subst h; exact ⟨hE.reach, hE.ids, hE.frames, hE.rate⟩
  | stop => injection h with h; subst h; exact ⟨hE.reach, hE.ids, hE.frames, hE.rate⟩
  | addDsp d =>
    obtain ⟨G, h1, h2⟩ := bind_ok h
    injection h2 with h2
    subst h2
    refine ⟨.add d hE.reach h1, ?_, hE.frames, hE.rate⟩
    obtain ⟨g, h3, h4⟩ := bind_ok h1
    injection h4 with h4
    subst h4
    intro k e he
    rcases exec_ids hq.rep IterOrder.id (.addNode d.id d) (by intro _ _ _ _ h; cases h) h3 k e he with
      ⟨e', h'⟩ | ⟨_, _, _, h'⟩
    · exact hE.ids k e' h'
    · cases h'
  | removeDsp i =>
    obtain ⟨G, h1, h2⟩ := bind_ok h
    injection h2 with h2
    subst h2
    have hr : DspGraph.Reachable ops mf mc sr (collect E.graph luck.collected) :=
      .collect _ hE.reach (Nat.sub_le _ _)
    refine ⟨.remove i hr h1, ?_, hE.frames, hE.rate⟩
    obtain ⟨⟨g, d⟩, h3, h4⟩ := bind_ok h1
    have hG : G.graph = g := by
      cases d with
      | none => injection h4 with h4; subst h4; rfl
      | some d =>
        simp only at h4
        split_ifs at h4
        injection h4 with h4; subst h4; rfl
    intro k e he
    change G.graph.getEdge k = some e at he
    rw [hG] at he
    rcases exec_ids hq.rep IterOrder.id (.removeNode i) (by intro _ _ _ _ h; cases h)
      (show (E.graph.graph.removeNode i >>= fun r => pure r.1) = .ok g from ok_bind h3) k e he with
      ⟨e', h'⟩ | ⟨_, _, _, h'⟩
    · exact hE.ids k e' h'
    · cases h'
  | change i r =>
    obtain ⟨G, h1, h2⟩ := bind_ok h
    injection h2 with h2
    subst h2
    refine ⟨.change i r hE.reach h1, ?_, hE.frames, hE.rate⟩
    unfold changeParameter at h1
    split at h1
    · injection h1 with h1; subst h1; exact hE.ids
    · obtain ⟨s, _, h3⟩ := bind_ok h1
      injection h3 with h3; subst h3; exact hE.ids
  | addConnection x =>
    obtain ⟨G, h1, h2⟩ := bind_ok h
    injection h2 with h2
    subst h2
    have hnone : E.graph.graph.getEdge (E.nextId + luck.gap) = none := by
      cases hn : E.graph.graph.getEdge (E.nextId + luck.gap) with
      | none => rfl
      | some e =>
        have := hE.ids _ _ hn
        change _ < E.nextId at this
        exact absurd this (by simp)
    refine ⟨.connect _ x hE.reach hnone h1, ?_, hE.frames, hE.rate⟩
    obtain ⟨g, h3, h4⟩ := bind_ok h1
    injection h4 with h4
    subst h4
    intro k e he
    rcases exec_ids hq.rep IterOrder.id (.connect (E.nextId + luck.gap) x.source.dsp x.destination.dsp x)
      (by intro _ _ _ _ h; cases h; exact hnone) h3 k e he with ⟨e', h'⟩ | ⟨_, _, _, h'⟩
    · have := hE.ids k e' h'
      exact Nat.lt_of_lt_of_le this (Nat.le_trans (Nat.le_add_right _ _) (Nat.le_succ _))
    · cases h'
      exact Nat.lt_succ_self _
  | removeConnection x =>
    injection h with h
    subst h
    refine ⟨.disconnect luck.order x hE.reach, ?_, hE.frames, hE.rate⟩
    intro k e he
    rcases exec_ids hq.rep luck.order (.disconnect x.source.dsp x.destination.dsp)
      (by intro _ _ _ _ h; cases h) rfl k e he with ⟨e', h'⟩ | ⟨_, _, _, h'⟩
    · exact hE.ids k e' h'
    · cases h'
  | connectToOutput ep =>
    injection h with h
    subst h
    obtain ⟨kind, i⟩ := ep
    have hk : kind = .output := hc
    subst hk
    exact ⟨.toOutput i hE.reach, hE.ids, hE.frames, hE.rate⟩
  | connectToInput ep =>
    injection h with h
    subst h
    obtain ⟨kind, i⟩ := ep
    have hk : kind = .input := hc
    subst hk
    exact ⟨.toInput i hE.reach, hE.ids, hE.frames, hE.rate⟩

theorem processCommands_inv [Zero S] [Add S] {ops : NodeOps S P C} {mf mc sr : Nat} (hm : 0 < mf)
    (cs : List (Command P C × Luck)) : ∀ (E E' : Processor S P), EInv ops mf mc sr E →
    (∀ c ∈ cs, c.1.Api) → E.processCommands ops cs = .ok E' → EInv ops mf mc sr E' := by
  induction cs with
  | nil => intro E E' hE _ h; injection h with h; subst h; exact hE
  | cons c cs ih =>
    intro E E' hE hc h
    obtain ⟨E1, h1, h2⟩ := foldlM_cons_ok h
    exact ih _ _ (apply_inv hm hE (hc c (by simp)) h1) (fun d hd => hc d (by simp [hd])) h2

/-- The edges of the graph are not changed by rendering. -/
theorem getEdge_isSome_of_inv [Zero S] {D : Dims} {G G' : DspGraph S P} {q : Patch Connection}
    (h : Inv D G q) (h' : Inv D G' q) (k : Id) (e : Edge Connection)
    (he : G'.graph.getEdge k = some e) : ∃ e', G.graph.getEdge k = some e' :=
  (h.rep.shows.conns k).mp ((h'.rep.shows.conns k).mpr ⟨e, he⟩)

/-- A process call taken apart. -/
theorem process_parts [Zero S] [Add S] {ops : NodeOps S P C} {env : Nat → Env}
    {cs : List (Command P C × Luck)} {E E' : Processor S P} {input output o' : Buf S}
    (hw : output.WF) (hm : output.Writable)
    (h : E.process ops env cs input output = .ok (o', E')) :
    ∃ E1 o1, E.processCommands ops cs = .ok E1 ∧ output.clear = .ok o1 ∧ output.SameShape o1 ∧
      o1.WF ∧ o1.Writable ∧
      (∀ c f, c < output.channelCount → f < output.frameCount → o1.sample? c f = some 0) ∧
      E1.render ops env input o1 = .ok (o', E') := by
  obtain ⟨o1, h1, h⟩ := bind_ok h
  obtain ⟨E1, h2, h3⟩ := bind_ok h
  obtain ⟨b, e1, e2, e3, e4, e5⟩ := Buf.C36_clear output hw hm
  rw [h1] at e1
  injection e1 with e1
  subst e1
  exact ⟨E1, o1, h2, h1, e2, e3, e4, e5, h3⟩

/-- A running process call. -/
theorem render_started [Zero S] [Add S] {ops : NodeOps S P C} {env : Nat → Env}
    {E E' : Processor S P} {input output o' : Buf S} (hs : E.started = true)
    (h : E.render ops env input output = .ok (o', E')) :
    ∃ G', processLoop (runGraph ops env) E.maxFrames E.sampleRate E.currentTime input
        (output.frameCount + 1) 0 E.graph output = .ok (o', G') ∧
      E' = updatePosition { E with graph := G' } output.frameCount := by
  unfold render at h
  rw [if_pos hs] at h
  obtain ⟨⟨o1, G'⟩, h1, h2⟩ := bind_ok h
  injection h2 with h2
  obtain ⟨rfl, rfl⟩ := Prod.mk.inj h2
  exact ⟨G', h1, rfl⟩

theorem render_stopped [Zero S] [Add S] {ops : NodeOps S P C} {env : Nat → Env}
    {E E' : Processor S P} {input output o' : Buf S} (hs : E.started = false)
    (h : E.render ops env input output = .ok (o', E')) : o' = output ∧ E' = E := by
  unfold render at h
  rw [if_neg (by simp [hs])] at h
  injection h with h
  obtain ⟨rfl, rfl⟩ := Prod.mk.inj h
  exact ⟨rfl, rfl⟩

/-- What rendering does to the clock and the transport, whatever the graph does. -/
theorem render_clock [Zero S] [Add S] {ops : NodeOps S P C} {env : Nat → Env}
    {E E' : Processor S P} {input output o' : Buf S}
    (h : E.render ops env input output = .ok (o', E')) :
    E'.sampleRate = E.sampleRate ∧ E'.started = E.started ∧ E'.maxFrames = E.maxFrames ∧
    E'.nextId = E.nextId ∧
    (E.started = false → E'.currentTime = E.currentTime ∧ E'.framePosition = E.framePosition) ∧
    (E.started = true → E'.framePosition = E.framePosition + output.frameCount ∧
      E'.currentTime = Timestamp.fromSamples (E.framePosition + output.frameCount : Nat)
        E.sampleRate) := by
  cases hs : E.started with
  | false =>
    obtain ⟨_, rfl⟩ := render_stopped hs h
    exact ⟨rfl, hs, rfl, rfl, fun _ => ⟨rfl, rfl⟩, by intro h; cases h⟩
  | true =>
    obtain ⟨G', _, rfl⟩ := render_started hs h
    exact ⟨rfl, hs, rfl, rfl, (by intro h; cases h), fun _ => ⟨rfl, rfl⟩⟩

theorem render_inv [AddZeroClass S] {ops : NodeOps S P C} {mf mc sr : Nat} (hm : 0 < mf)
    {env : Nat → Env} {E E' : Processor S P} {input output o' : Buf S} (hE : EInv ops mf mc sr E)
    (hi : input.WF) (hw : output.WF) (hmo : output.Writable)
    (he : output.frameCount ≤ input.frameCount)
    (hz : ∀ c f, c < output.channelCount → f < output.frameCount → output.sample? c f = some 0)
    (h : E.render ops env input output = .ok (o', E')) :
    EInv ops mf mc sr E' ∧ E'.graph.inputEndpoint = E.graph.inputEndpoint ∧
    E'.graph.outputEndpoint = E.graph.outputEndpoint ∧ output.SameShape o' ∧
    (E.started = true → ∃ q, E.graph.graph.Shows q ∧
      RenderedCall ops q mf output.frameCount output.channelCount mc sr E.currentTime input
        (E.graph.inputEndpoint.map Endpoint.dsp) (E.graph.outputEndpoint.map Endpoint.dsp) o'.sample?
        0 E.graph.graph.getNode E'.graph.graph.getNode) := by
  cases hs : E.started with
  | false =>
    obtain ⟨rfl, rfl⟩ := render_stopped hs h
    exact ⟨hE, rfl, rfl, Buf.SameShape.refl _, by intro h; cases h⟩
  | true =>
    obtain ⟨G', h1, rfl⟩ := render_started hs h
    obtain ⟨q, hq⟩ := reachable_inv hm hE.reach
    rw [hE.frames, hE.rate] at h1
    obtain ⟨c1, c2, c3, c4, c5, _, _, _, c9, _⟩ := renderedLoop hm hi _ _ _ _ _ _ hE.reach hq hw hmo he
      (Nat.zero_le _) (fun c f hc _ hf => hz c f hc hf) h1
    refine ⟨⟨c1, ?_, hE.frames, hE.rate⟩, c3, c4, c5, fun _ => ⟨q, hq.rep.shows, c9⟩⟩
    intro k e he
    obtain ⟨e', h'⟩ := getEdge_isSome_of_inv hq c2 k e he
    exact hE.ids k e' h'

theorem calls_append [Zero S] [Add S] {ops : NodeOps S P C} (ks ls : List (Call S P C)) :
    ∀ (E E' : Processor S P), calls ops E (ks ++ ls) = .ok E' ↔
    ∃ E1, calls ops E ks = .ok E1 ∧ calls ops E1 ls = .ok E' := by
  induction ks with
  | nil => intro E E'; exact ⟨fun h => ⟨E, rfl, h⟩, fun ⟨E1, h1, h2⟩ => by cases h1; exact h2⟩
  | cons k ks ih =>
    intro E E'
    constructor
    · intro h
      obtain ⟨⟨o, E2⟩, h1, h2⟩ := bind_ok h
      obtain ⟨E1, h3, h4⟩ := (ih _ _).mp h2
      exact ⟨E1, (ok_bind h1).trans h3, h4⟩
    · rintro ⟨E1, h1, h2⟩
      obtain ⟨⟨o, E2⟩, h3, h4⟩ := bind_ok h1
      exact (ok_bind h3).trans ((ih _ _).mpr ⟨E1, h4, h2⟩)

theorem calls_cons [Zero S] [Add S] {ops : NodeOps S P C} {k : Call S P C} {ks : List (Call S P C)}
    {E E' : Processor S P} (h : calls ops E (k :: ks) = .ok E') :
    ∃ o E1, E.process ops k.env k.commands k.input k.output = .ok (o, E1) ∧
      calls ops E1 ks = .ok E' := by
  obtain ⟨⟨o, E1⟩, h1, h2⟩ := bind_ok h
  exact ⟨o, E1, h1, h2⟩

theorem history_cons (k : Call S P C) (ks : List (Call S P C)) :
    history (k :: ks) = k.commands.map Prod.fst ++ history ks := rfl

theorem history_append (ks ls : List (Call S P C)) :
    history (ks ++ ls) = history ks ++ history ls := by
  unfold history
  rw [List.flatMap_append]

/-- What a sequence of calls leaves, in terms of the history. -/
theorem calls_inv [AddZeroClass S] {ops : NodeOps S P C} {mf mc sr : Nat} (hm : 0 < mf)
    (ks : List (Call S P C)) : ∀ (E E' : Processor S P), EInv ops mf mc sr E →
    (∀ k ∈ ks, k.Valid) → calls ops E ks = .ok E' →
    EInv ops mf mc sr E' ∧
    E'.graph.outputEndpoint.map Endpoint.dsp =
      (Command.latest Command.toOutput (history ks)).or (E.graph.outputEndpoint.map Endpoint.dsp) ∧
    E'.graph.inputEndpoint.map Endpoint.dsp =
      (Command.latest Command.toInput (history ks)).or (E.graph.inputEndpoint.map Endpoint.dsp) := by
  induction ks with
  | nil => intro E E' hE _ h; injection h with h; subst h; exact ⟨hE, rfl, rfl⟩
  | cons k ks ih =>
    intro E E' hE hk h
    obtain ⟨o, E1, h1, h2⟩ := calls_cons h
    have hv := hk k (by simp)
    obtain ⟨E0, o0, p1, p2, p3, p4, p5, p6, p7⟩ := process_parts hv.outWF hv.writable h1
    have hE0 := processCommands_inv hm _ _ _ hE hv.api p1
    obtain ⟨_, _, _, _, _, f6, f7⟩ := processCommands_frame _ _ _ p1
    obtain ⟨hE1, r1, r2, _⟩ := render_inv hm hE0 hv.inWF p4 p5 (by rw [← p3.frameCount]; exact hv.enough)
      (by rw [← p3.frameCount, ← p3.channelCount]; exact p6) p7
    obtain ⟨i1, i2, i3⟩ := ih _ _ hE1 (fun l hl => hk l (by simp [hl])) h2
    refine ⟨i1, ?_, ?_⟩
    · rw [i2, r2, f6, history_cons, Command.latest_append, Option.or_assoc]
    · rw [i3, r1, f7, history_cons, Command.latest_append, Option.or_assoc]

/-- The clock after a sequence of calls. -/
theorem calls_clock [Zero S] [Add S] {ops : NodeOps S P C} {sr : Nat} (ks : List (Call S P C)) :
    ∀ (E E' : Processor S P) (before : List (Command P C)), (∀ k ∈ ks, k.Valid) →
    E.started = Command.running before → E.sampleRate = sr →
    E.currentTime = Timestamp.fromSamples E.framePosition sr →
    calls ops E ks = .ok E' →
    E'.started = Command.running (before ++ history ks) ∧ E'.sampleRate = sr ∧
    E'.framePosition = E.framePosition + framesRun before ks ∧
    E'.currentTime = Timestamp.fromSamples E'.framePosition sr := by
  induction ks with
  | nil =>
    intro E E' before _ hs hr ht h
    injection h with h
    subst h
    refine ⟨?_, hr, rfl, ht⟩
    rw [hs, history, List.flatMap_nil, List.append_nil]
  | cons k ks ih =>
    intro E E' before hk hs hr ht h
    obtain ⟨o, E1, h1, h2⟩ := calls_cons h
    have hv := hk k (by simp)
    obtain ⟨E0, o0, p1, p2, p3, p4, p5, p6, p7⟩ := process_parts hv.outWF hv.writable h1
    obtain ⟨f1, _, f3, f4, f5, _, _⟩ := processCommands_frame _ _ _ p1
    obtain ⟨g1, g2, _, _, g5, g6⟩ := render_clock p7
    have hs0 : E0.started = Command.running (before ++ k.commands.map Prod.fst) := by
      rw [f5, hs]
      unfold Command.running
      rw [Command.latest_append]
      cases Command.latest Command.transport (k.commands.map Prod.fst) <;> rfl
    have hpos : E1.framePosition = E.framePosition +
        (if Command.running (before ++ k.commands.map Prod.fst) then k.output.frameCount else 0) := by
      rw [← hs0, ← f3, p3.frameCount]
      cases hst : E0.started with
      | true => exact (g6 hst).1
      | false => exact (g5 hst).2
    have htime : E1.currentTime = Timestamp.fromSamples E1.framePosition sr := by
      cases hst : E0.started with
      | true => rw [(g6 hst).2, (g6 hst).1, f1, hr]
      | false => rw [(g5 hst).1, (g5 hst).2, f3, f4, ht]
    obtain ⟨i1, i2, i3, i4⟩ := ih E1 E' (before ++ k.commands.map Prod.fst)
      (fun l hl => hk l (by simp [hl])) (g2.trans hs0) (g1.trans (f1.trans hr)) htime h2
    refine ⟨?_, i2, ?_, i4⟩
    · rw [i1, history_cons, List.append_assoc]
    · rw [i3, hpos, framesRun, Nat.add_assoc]

end Processor
end Rawdio
