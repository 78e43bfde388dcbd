import Verif.Lemmas.EngineView

/-! Helper lemmas: rendering is determined by its inputs, splitting a call, progress. -/

namespace Rawdio

variable {S P C : Type}

/-- A call of no frames changes no node. -/
theorem rendered_none [Zero S] [Add S] {ops : NodeOps S P C} {p : Patch Connection}
    {full total channels mc sr : Nat} {now : Int} {input : Buf S} {f t : Option Id}
    {out : Nat → Nat → Option S} {offset : Nat} {before after : Id → Option (Dsp P)}
    (h : RenderedCall ops p full total channels mc sr now input f t out offset before after)
    (hz : total = 0) : after = before := by
  cases h with
  | done => rfl
  | block _ _ _ _ hlt => omega

/-- Rendering keeps the shape of every node. -/
theorem rendered_counts [Zero S] [Add S] {ops : NodeOps S P C} {p : Patch Connection}
    {full total channels mc sr : Nat} {now : Int} {input : Buf S} {ff tt : Option Id}
    {out : Nat → Nat → Option S} {offset : Nat} {before after : Id → Option (Dsp P)}
    (h : RenderedCall ops p full total channels mc sr now input ff tt out offset before after) :
    ∀ n d', after n = some d' →
      ∃ d, before n = some d ∧ d.outputCount = d'.outputCount ∧ d.inputCount = d'.inputCount := by
  induction h with
  | done _ states _ => intro n d' h; exact ⟨d', h, rfl, rfl⟩
  | block offset frames before mid after window sig _ _ _ _ hr _ _ ih =>
    intro n d' h
    obtain ⟨dm, h1, h2, h3⟩ := ih n d' h
    by_cases hn : n ∈ p.nodes
    · obtain ⟨d, o, st, r1, _, r3, _⟩ := hr.run n hn
      rw [h1] at r3
      injection r3 with r3
      subst r3
      exact ⟨d, r1, h2, h3⟩
    · rw [hr.gone n hn] at h1
      cases h1

/-- Where the system output is silent. -/
theorem rendered_silent [Zero S] [Add S] {ops : NodeOps S P C} {p : Patch Connection}
    {full total channels mc sr : Nat} {now : Int} {input : Buf S} {ff tt : Option Id}
    {out : Nat → Nat → Option S} {offset : Nat} {before after : Id → Option (Dsp P)}
    (h : RenderedCall ops p full total channels mc sr now input ff tt out offset before after)
    (c : Nat) (hc : c < channels) :
    (∀ n, tt = some n → n ∉ p.nodes ∨ mc ≤ c ∨ ∃ d, before n = some d ∧ d.outputCount ≤ c) →
    ∀ f, offset ≤ f → f < total → out c f = some 0 := by
  induction h with
  | done _ states hd => intro _ f h1 h2; omega
  | block offset frames before mid after window sig hlt hfr _ _ hr ho _ ih =>
    intro hcase f h1 h2
    by_cases hf : f < offset + frames
    · have := ho c (f - offset) hc (by omega)
      rw [show offset + (f - offset) = f by omega] at this
      rw [this]
      cases tt with
      | none => rfl
      | some n =>
        simp only
        split
        · rename_i hcond
          rcases hcase n rfl with h | h | ⟨d, h, hle⟩
          · exact absurd hcond.1 h
          · omega
          · obtain ⟨d0, o, st, r1, _, _, r4⟩ := hr.run n hcond.1
            rw [h] at r1
            injection r1 with r1
            subst r1
            rw [r4, if_neg (by omega)]
        · rfl
    · refine ih ?_ f (by omega) h2
      intro n hn
      rcases hcase n hn with h | h | ⟨d, h, hle⟩
      · exact .inl h
      · exact .inr (.inl h)
      · by_cases hnn : n ∈ p.nodes
        · obtain ⟨d0, o, st, r1, _, r3, _⟩ := hr.run n hnn
          rw [h] at r1
          injection r1 with r1
          subst r1
          exact .inr (.inr ⟨_, r3, hle⟩)
        · exact .inl hnn

/-- Nodes that do not look at the clock. -/
theorem Rendered.unique [Zero S] [Add S] {ops : NodeOps S P C} {p : Patch Connection}
    {before : Id → Option (Dsp P)} {frames sr : Nat} {t t' : Int}
    (htime : ∀ s b u, ops.run s { b with time := u } = ops.run s b)
    {system system' : Id → Nat → Nat → S} (hsys : ∀ n c f, f < frames → system n c f = system' n c f)
    {sig sig' : Signals S} {after after' : Id → Option (Dsp P)} {order : List Id}
    (hv : p.ValidOrder order)
    (h : Rendered ops p before frames sr t (p.received system) sig after)
    (h' : Rendered ops p before frames sr t' (p.received system') sig' after') :
    (∀ n ∈ p.nodes, sig n = sig' n) ∧ after = after' := by
  have key : ∀ (rest done : List Id), done ++ rest = order →
      (∀ i ∈ done, sig i = sig' i ∧ after i = after' i) →
      ∀ i ∈ order, sig i = sig' i ∧ after i = after' i := by
    intro rest
    induction rest with
    | nil => intro done he hd; rw [← he, List.append_nil]; exact hd
    | cons j rest ih =>
      intro done he hd
      refine ih (done ++ [j]) (by rw [← he]; simp) ?_
      intro i hi
      rw [List.mem_append, List.mem_singleton] at hi
      rcases hi with hi | rfl
      · exact hd i hi
      · have hin : i ∈ p.nodes := (hv.complete i).mp (by rw [← he]; simp)
        obtain ⟨d, out, st, a1, a2, a3, a4⟩ := h.run i hin
        obtain ⟨d', out', st', b1, b2, b3, b4⟩ := h'.run i hin
        rw [a1] at b1
        injection b1 with b1
        subst b1
        have hsrc : ∀ kk ∈ p.at' i .incoming, sig kk.src = sig' kk.src := fun kk hk =>
          (hd kk.src (DspGraph.sources_done (by rw [he]; exact hv) kk hk)).1
        have hw : window d.inputCount frames (p.received system sig i) =
            window d.inputCount frames (p.received system' sig' i) := by
          funext c f
          unfold window
          split_ifs with hcf
          · congr 1
            have harr : p.arriving sig i c f = p.arriving sig' i c f := by
              unfold Patch.arriving
              apply List.map_congr_left
              intro kk hk
              rw [hsrc kk (List.mem_filter.mp hk).1]
            unfold Patch.received
            rw [harr]
            cases hks : p.at' i .incoming with
            | nil => exact hsys i c f hcf.2
            | cons k ks =>
              simp only
              rw [hsys i c f hcf.2, hsrc k (by rw [hks]; simp)]
          · rfl
        have e := htime d.state ⟨frames, sr, t, window d.inputCount frames (p.received system sig i),
          window d.outputCount frames silence⟩ t'
        rw [a2] at e
        simp only [hw] at e
        rw [b2] at e
        injection e with e
        obtain ⟨rfl, rfl⟩ := Prod.mk.inj e
        refine ⟨?_, by rw [a3, b3]⟩
        funext c f
        rw [a4, b4]
  have all := key order [] rfl (by intro i hi; cases hi)
  refine ⟨fun n hn => (all n ((hv.complete n).mpr hn)).1, ?_⟩
  funext n
  by_cases hn : n ∈ p.nodes
  · exact (all n ((hv.complete n).mpr hn)).2
  · rw [h.gone n hn, h'.gone n hn]

section split

variable [Zero S] [Add S] {ops : NodeOps S P C} {p : Patch Connection} {order : List Id}
  {full channels mc sr : Nat} {now now' : Int} {fromSystem toSystem : Option Id}

/-- Two renderings of one block on the same input. -/
theorem block_unique (htime : ∀ s b u, ops.run s { b with time := u } = ops.run s b)
    (hv : p.ValidOrder order) {frames : Nat} {t t' : Int} {window window' : Buf S} {n : Nat}
    (hw : ∀ c f, f < frames → window.sample? c f = window'.sample? c f) {sig sig' : Signals S}
    {before after after' : Id → Option (Dsp P)}
    (h : Rendered ops p before frames sr t (p.received (arrivesFromSystem fromSystem window n frames))
      sig after)
    (h' : Rendered ops p before frames sr t'
      (p.received (arrivesFromSystem fromSystem window' n frames)) sig' after') :
    (∀ n ∈ p.nodes, sig n = sig' n) ∧ after = after' := by
  refine Rendered.unique htime ?_ hv h h'
  intro m c f hf
  unfold arrivesFromSystem
  rw [hw c f hf]

/-- What the system output shows of the signals. -/
theorem shown_unique {sig sig' : Signals S} (h : ∀ n ∈ p.nodes, sig n = sig' n) (c f : Nat) :
    (match toSystem with
      | some n => if n ∈ p.nodes ∧ c < mc then sig n c f else 0
      | none => 0) =
    (match toSystem with
      | some n => if n ∈ p.nodes ∧ c < mc then sig' n c f else 0
      | none => 0) := by
  cases toSystem with
  | none => rfl
  | some n =>
    simp only
    split_ifs with hh
    · rw [h n hh.1]
    · rfl

/-- The second part of a split call. -/
theorem rendered_shift (htime : ∀ s b u, ops.run s { b with time := u } = ops.run s b)
    (hv : p.ValidOrder order) {a b : Nat} {input inB : Buf S} {out outB : Nat → Nat → Option S}
    (hch : inB.channelCount = input.channelCount)
    (hin : ∀ c f, f < b → inB.sample? c f = input.sample? c (a + f)) {e : Nat}
    {before after after' : Id → Option (Dsp P)}
    (h : RenderedCall ops p full b channels mc sr now' inB fromSystem toSystem outB e before after) :
    RenderedCall ops p full (a + b) channels mc sr now input fromSystem toSystem out (a + e)
      before after' →
    (∀ c f, c < channels → e ≤ f → f < b → out c (a + f) = outB c f) ∧ after' = after := by
  induction h with
  | done e states hle =>
    intro h'
    cases h' with
    | done _ _ _ => exact ⟨by intro c f _ h1 h2; omega, rfl⟩
    | block _ _ _ _ _ _ _ hlt => omega
  | block e n bef mid aft w sig hlt hn hwc hw hr ho hrest ih =>
    intro h'
    cases h' with
    | done _ _ hle => omega
    | block _ n' _ mid' _ w' sig' hlt' hn' hwc' hw' hr' ho' hrest' =>
      have hnn : n' = n := by rw [hn, hn']; congr 1; omega
      subst hnn
      have hu := block_unique htime hv (window := w') (window' := w) (by
        intro c f hf
        rw [hw' c f hf, hw c f hf, hin c (e + f) (by omega)]
        congr 1; omega) hr' (hch ▸ hr)
      obtain ⟨hs, rfl⟩ := hu
      obtain ⟨i1, i2⟩ := ih (by rw [← Nat.add_assoc]; exact hrest')
      refine ⟨?_, i2⟩
      intro c f hc h1 h2
      by_cases hf : f < e + n'
      · obtain ⟨g, rfl⟩ := Nat.exists_eq_add_of_le h1
        rw [← Nat.add_assoc, ho' c g hc (by omega), ho c g hc (by omega)]
        congr 1
        exact shown_unique hs c g
      · exact i1 c f hc (by omega) h2

/-- A call split at a block boundary. -/
theorem rendered_split (htime : ∀ s b u, ops.run s { b with time := u } = ops.run s b)
    (hv : p.ValidOrder order) {a b : Nat} {input inA inB : Buf S}
    {out outA outB : Nat → Nat → Option S}
    (hchA : inA.channelCount = input.channelCount) (hchB : inB.channelCount = input.channelCount)
    (hinA : ∀ c f, f < a → inA.sample? c f = input.sample? c f)
    (hinB : ∀ c f, f < b → inB.sample? c f = input.sample? c (a + f)) {nowB : Int} {e : Nat}
    {before after after' after'' : Id → Option (Dsp P)}
    (h : RenderedCall ops p full a channels mc sr now' inA fromSystem toSystem outA e before after)
    (hB : RenderedCall ops p full b channels mc sr nowB inB fromSystem toSystem outB 0 after after') :
    (∃ j, a = e + j * full) →
    RenderedCall ops p full (a + b) channels mc sr now input fromSystem toSystem out e
      before after'' →
    (∀ c f, c < channels → e ≤ f → f < a → out c f = outA c f) ∧
    (∀ c f, c < channels → f < b → out c (a + f) = outB c f) ∧ after'' = after' := by
  induction h with
  | done e states hle =>
    rintro ⟨j, hj⟩ h'
    have : e = a := by omega
    subst this
    obtain ⟨i1, i2⟩ := rendered_shift htime hv hchB hinB hB (by rw [Nat.add_zero]; exact h')
    exact ⟨by intro c f _ h1 h2; omega, fun c f hc hf => i1 c f hc (Nat.zero_le _) hf, i2⟩
  | block e n bef mid aft w sig hlt hn hwc hw hr ho hrest ih =>
    rintro ⟨j, hj⟩ h'
    obtain ⟨j, rfl⟩ : ∃ i, j = i + 1 := by
      cases j with
      | zero => omega
      | succ i => exact ⟨i, rfl⟩
    have hmul : (j + 1) * full = j * full + full := Nat.succ_mul _ _
    cases h' with
    | done _ _ hle => omega
    | block _ n' _ mid' _ w' sig' hlt' hn' hwc' hw' hr' ho' hrest' =>
      have hnn : n' = n := by rw [hn, hn']; omega
      subst hnn
      have hu := block_unique htime hv (window := w') (window' := w) (by
        intro c f hf
        rw [hw' c f hf, hw c f hf, hinA c (e + f) (by omega)]) hr' (hchA ▸ hr)
      obtain ⟨hs, rfl⟩ := hu
      obtain ⟨i1, i2, i3⟩ := ih hB ⟨j, by omega⟩ hrest'
      refine ⟨?_, i2, i3⟩
      intro c f hc h1 h2
      by_cases hf : f < e + n'
      · obtain ⟨g, rfl⟩ := Nat.exists_eq_add_of_le h1
        rw [ho' c g hc (by omega), ho c g hc (by omega)]
        congr 1
        exact shown_unique hs c g
      · exact i1 c f hc (by omega) h2

end split

namespace Processor

open DspGraph

/-- Graphs that can be rendered whatever comes in. -/
def Ready (ops : NodeOps S P C) [Zero S] [Add S] (mf mc sr : Nat) (G : DspGraph S P) : Prop :=
  Reachable ops mf mc sr G ∧ ∃ q, Inv ⟨mc, mf, sr⟩ G q ∧ q.Acyclic ∧ q.NoParallel ∧
    G.Fits q mc ∧ q.nodes.length ≤ 1022

theorem ready_process [Zero S] [Add S] {ops : NodeOps S P C} {env : Env} {mf mc sr : Nat}
    (hm : 0 < mf) (hops : ∀ s b, ∃ r, ops.run s b = .ok r) {G : DspGraph S P}
    (hG : Ready ops mf mc sr G) {input output : Buf S} (hv : ValidBlock input output) (t : Int) :
    ∃ r, G.process ops env input output t = .ok r := by
  obtain ⟨_, q, hq, hac, hnp, hfit, hsize⟩ := hG
  refine process_progress hq hv.inWF hv.outWF hv.writable hv.nonempty hm hv.enough hac hnp ?_ ?_
  · change q.nodes.length + 2 ≤ 1024
    omega
  · intro i hi
    refine ⟨?_, inputFits_of_fits hfit i⟩
    intro d hd
    exact ⟨(hfit.1 i d hd).2, (hfit.1 i d hd).1, fun x => hops _ _⟩

theorem ready_writesSlice [Zero S] [Add S] (ops : NodeOps S P C) (env : Nat → Env) {mf mc sr : Nat}
    (hm : 0 < mf) : WritesSlice (Ready ops mf mc sr) (runGraph ops env) := by
  intro offset G input p r t o' G' hG hv h
  obtain ⟨hR, q, hq, hac, hnp, hfit, hsize⟩ := hG
  obtain ⟨sig, hd, h2⟩ := process_writesSlice (D := ⟨mc, mf, sr⟩) hm hq hv h
  refine ⟨⟨.process (env offset) _ _ _ _ hR hv h, q, hd.inv, hac, hnp, ⟨?_, hfit.2⟩, hsize⟩, h2⟩
  intro i d hid
  have hi : i ∈ q.nodes := (hd.inv.rep.shows.nodes i).mpr ⟨d, hid⟩
  obtain ⟨d', _, st, r1, _, r3, _⟩ := hd.ran i hi
  rw [hid] at r3
  injection r3 with r3
  rw [r3]
  exact hfit.1 i d' r1

/-- A call on a graph that can be rendered. -/
theorem process_ready [Zero S] [Add S] {ops : NodeOps S P C} {mf mc sr : Nat} (hm : 0 < mf)
    (hops : ∀ s b, ∃ r, ops.run s b = .ok r) {E E0 : Processor S P} {k : Call S P C}
    (hk : k.Valid) (hf : E0.maxFrames = mf) (h : E.processCommands ops k.commands = .ok E0)
    (hG : E0.started = true → Ready ops mf mc sr E0.graph) :
    ∃ r, E.process ops k.env k.commands k.input k.output = .ok r := by
  obtain ⟨o0, e1, e2, e3, e4, e5⟩ := Buf.C36_clear k.output hk.outWF hk.writable
  have key : ∃ r, E0.render ops k.env k.input o0 = .ok r := by
    unfold render
    cases hs : E0.started with
    | false => exact ⟨_, if_neg (by simp)⟩
    | true =>
      obtain ⟨r, hr⟩ := processLoop_progress (ready_writesSlice ops k.env hm)
        (fun offset g i o t hg hv => ready_process hm hops hg hv t) (sr := E0.sampleRate) hm
        (now := E0.currentTime) hk.inWF (o0.frameCount + 1) 0 E0.graph o0 (hG hs)
        e3 e4 (by rw [← e2.frameCount]; exact hk.enough) (Nat.zero_le _) (by omega)
      rw [← hf] at hr
      exact ⟨_, (if_pos rfl).trans (ok_bind hr)⟩
  obtain ⟨r, hr⟩ := key
  exact ⟨r, (ok_bind e1).trans ((ok_bind h).trans hr)⟩

end Processor
end Rawdio
