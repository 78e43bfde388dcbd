import Verif.Lemmas.Engine
import Verif.Lemmas.Timestamp

/-! Helper lemmas: the engine refines its specification. -/

namespace Rawdio

variable {S P C : Type}

namespace Processor

open DspGraph

/-- The engine looks like the view. -/
structure Looks (E : Processor S P) (mf mc sr : Nat) [Zero S] (V : View P) : Prop where
  inv : Inv ⟨mc, mf, sr⟩ E.graph V.patch
  node : ∀ i, E.graph.graph.getNode i = V.node i
  running : E.started = V.running
  fromSystem : E.graph.inputEndpoint.map Endpoint.dsp = V.fromSystem
  toSystem : E.graph.outputEndpoint.map Endpoint.dsp = V.toSystem
  frames : E.framePosition = V.frames
  time : E.currentTime = Timestamp.fromSamples E.framePosition sr

theorem looks_new [Zero S] (mf mc sr : Nat) :
    Looks (new sr mc mf : Processor S P) mf mc sr View.empty := by
  refine ⟨inv_new .., fun _ => rfl, rfl, rfl, rfl, rfl, ?_⟩
  simp [new, Timestamp.fromSamples, Timestamp.fromSeconds, Timestamp.roundHalfEven]

/-- What an edit request does to the node behind an identity. -/
def nodesAfter {N E : Type} (g : Graph N E) : GraphCmd N E → Id → Option N
  | .addNode i d, j => if j = i then some d else g.getNode j
  | .removeNode i, j => if j = i then none else g.getNode j
  | _, j => g.getNode j

theorem exec_step_nodes {N E : Type} {g : Graph N E} {p : Patch E} (h : Graph.Rep g p)
    (σ : IterOrder Id) (c : GraphCmd N E)
    (hk : ∀ k a b d, c = .connect k a b d → ∀ x ∈ p.conns, x.id ≠ k)
    {g' : Graph N E} (hg : g.exec σ c = .ok g') :
    ∃ p', Patch.Step p c p' ∧ Graph.Rep g' p' ∧
      ∀ j, g'.getNode j = nodesAfter g c j := by
  obtain ⟨p', hs, hr⟩ := Graph.exec_step h σ c hk hg
  refine ⟨p', hs, hr, ?_⟩
  intro j
  cases hs with
  | addNode i d hi =>
    obtain ⟨g1, e1, _, e3⟩ := Graph.rep_addNode h i d hi
    rw [Graph.exec, e1] at hg
    injection hg with hg
    subst hg
    exact e3 j
  | removeNode i hi =>
    obtain ⟨g1, e1, _, e3⟩ := Graph.rep_removeNode h i hi
    rw [Graph.exec, e1] at hg
    injection hg with hg
    subst hg
    exact e3 j
  | connect k a b d ha hb =>
    obtain ⟨g1, e1, _, e3⟩ := Graph.rep_addEdge h k a b d ha hb (hk k a b d rfl)
    rw [Graph.exec, e1] at hg
    injection hg with hg
    subst hg
    exact e3 j
  | disconnect a b _ _ c h1 h2 h3 =>
    injection hg with hg
    subst hg
    cases hf : g.findEdge σ a b with
    | none => rw [Graph.removeEdge_none hf]; rfl
    | some i =>
      obtain ⟨c, hc, hid, _⟩ := Graph.findEdge_some h hf
      rw [← hid] at hf
      exact (Graph.rep_removeEdge h σ a b hc hf).2.2 j
  | disconnectNone a b hno =>
    injection hg with hg
    subst hg
    cases hf : g.findEdge σ a b with
    | none => rw [Graph.removeEdge_none hf]; rfl
    | some i =>
      obtain ⟨c, hc, hid, _⟩ := Graph.findEdge_some h hf
      rw [← hid] at hf
      exact (Graph.rep_removeEdge h σ a b hc hf).2.2 j

theorem apply_looks [Zero S] [Add S] {ops : NodeOps S P C} {mf mc sr : Nat}
    {E E' : Processor S P} (hE : EInv ops mf mc sr E) {V : View P} (hV : Looks E mf mc sr V)
    {c : Command P C × Luck} (hc : c.1.Api) (h : E.apply ops c = .ok E') :
    ∃ W, Command.Effect ops V c.1 W ∧ Looks E' mf mc sr W := by
  obtain ⟨c, luck⟩ := c
  have hi := hV.inv
  cases c with
  | start =>
    injection h with h; subst h
    exact ⟨_, .start V, hi, hV.node, rfl, hV.fromSystem, hV.toSystem, hV.frames, hV.time⟩
  | stop =>
    injection h with h; subst h
    exact ⟨_, .stop V, hi, hV.node, rfl, hV.fromSystem, hV.toSystem, hV.frames, hV.time⟩
  | addDsp d =>
    obtain ⟨G, h1, h2⟩ := bind_ok h
    injection h2 with h2
    subst h2
    obtain ⟨g, h3, h4⟩ := bind_ok h1
    injection h4 with h4
    subst h4
    obtain ⟨q, s1, s2, s3⟩ := exec_step_nodes hi.rep .id (.addNode d.id d)
      (by intro _ _ _ _ h; cases h) h3
    refine ⟨_, .addDsp V d q s1, ⟨s2, (by intro h; cases h), hi.free, hi.channels, hi.frames,
      hi.inKind, hi.outKind⟩, ?_, hV.running, hV.fromSystem, hV.toSystem, hV.frames, hV.time⟩
    intro j
    exact (s3 j).trans (by simp only [nodesAfter, hV.node])
  | removeDsp i =>
    obtain ⟨G, h1, h2⟩ := bind_ok h
    injection h2 with h2
    subst h2
    obtain ⟨⟨g, d⟩, h3, h4⟩ := bind_ok h1
    change E.graph.graph.removeNode i = _ at h3
    obtain ⟨q, s1, s2, s3⟩ := exec_step_nodes (g' := g) hi.rep .id (.removeNode i)
      (by intro _ _ _ _ h; cases h) (by rw [Graph.exec]; exact ok_bind h3)
    have hG : G.graph = g ∧ G.inputEndpoint = E.graph.inputEndpoint ∧
        G.outputEndpoint = E.graph.outputEndpoint ∧ G.needsSort = true ∧ G.pools = E.graph.pools ∧
        G.maxChannels = E.graph.maxChannels ∧ G.maxFrames = E.graph.maxFrames := by
      cases d with
      | none => injection h4 with h4; subst h4; exact ⟨rfl, rfl, rfl, rfl, rfl, rfl, rfl⟩
      | some d =>
        simp only at h4
        split_ifs at h4
        injection h4 with h4; subst h4; exact ⟨rfl, rfl, rfl, rfl, rfl, rfl, rfl⟩
    obtain ⟨e1, e2, e3, e4, e5, e6, e7⟩ := hG
    refine ⟨_, .removeDsp V i q s1, ⟨?_, ?_, ?_, ?_, ?_, ?_, ?_⟩, ?_, hV.running, ?_, ?_, hV.frames,
      hV.time⟩
    · simp only [e1]; exact s2
    · intro h; simp only [e4] at h; cases h
    · simp only [e5]; exact hi.free
    · simp only [e6]; exact hi.channels
    · simp only [e7]; exact hi.frames
    · simp only [e2]; exact hi.inKind
    · simp only [e3]; exact hi.outKind
    · intro j
      simp only [e1]
      exact (s3 j).trans (by simp only [nodesAfter, hV.node])
    · simp only [e2]; exact hV.fromSystem
    · simp only [e3]; exact hV.toSystem
  | change i r =>
    obtain ⟨G, h1, h2⟩ := bind_ok h
    injection h2 with h2
    subst h2
    unfold changeParameter at h1
    cases hd : E.graph.graph.getNode i with
    | none =>
      rw [hd] at h1
      injection h1 with h1; subst h1
      exact ⟨_, .changeAbsent V i r (by rw [← hV.node, hd]), hV⟩
    | some d =>
      rw [hd] at h1
      obtain ⟨s, h2, h3⟩ := bind_ok h1
      injection h3 with h3
      subst h3
      refine ⟨_, .change V i r d s (by rw [← hV.node, hd]) h2, ⟨Graph.rep_setNode hi.rep _ _,
        hi.sorted, hi.free, hi.channels, hi.frames, hi.inKind, hi.outKind⟩, ?_, hV.running,
        hV.fromSystem, hV.toSystem, hV.frames, hV.time⟩
      intro j
      simp only
      rw [Graph.getNode_setNode]
      split_ifs with hj
      · subst hj; rw [hd]; rfl
      · exact hV.node j
  | addConnection k =>
    obtain ⟨G, h1, h2⟩ := bind_ok h
    injection h2 with h2
    subst h2
    obtain ⟨g, h3, h4⟩ := bind_ok h1
    injection h4 with h4
    subst h4
    have hfresh : ∀ x ∈ V.patch.conns, x.id ≠ E.nextId + luck.gap := by
      intro x hx hxk
      obtain ⟨e, he, _⟩ := hi.rep.shows.ends x hx
      have := hE.ids _ _ he
      rw [hxk] at this
      exact absurd this (by simp)
    obtain ⟨q, s1, s2, s3⟩ := exec_step_nodes hi.rep .id
      (.connect (E.nextId + luck.gap) k.source.dsp k.destination.dsp k)
      (by intro _ _ _ _ h; cases h; exact hfresh) h3
    exact ⟨_, .addConnection V k _ q hfresh s1, ⟨s2, (by intro h; cases h), hi.free, hi.channels,
      hi.frames, hi.inKind, hi.outKind⟩, fun j => (s3 j).trans (hV.node j), hV.running,
      hV.fromSystem, hV.toSystem, hV.frames, hV.time⟩
  | removeConnection k =>
    injection h with h
    subst h
    obtain ⟨q, s1, s2, s3⟩ := exec_step_nodes hi.rep luck.order
      (.disconnect k.source.dsp k.destination.dsp) (by intro _ _ _ _ h; cases h) rfl
    exact ⟨_, .removeConnection V k q s1, ⟨s2, (by intro h; cases h), hi.free, hi.channels,
      hi.frames, hi.inKind, hi.outKind⟩, fun j => (s3 j).trans (hV.node j), hV.running,
      hV.fromSystem, hV.toSystem, hV.frames, hV.time⟩
  | connectToOutput ep =>
    injection h with h
    subst h
    exact ⟨_, .connectToOutput V ep, ⟨hi.rep, hi.sorted, hi.free, hi.channels, hi.frames, hi.inKind,
      by intro e he; injection he with he; subst he; exact hc⟩, hV.node, hV.running, hV.fromSystem,
      rfl, hV.frames, hV.time⟩
  | connectToInput ep =>
    injection h with h
    subst h
    exact ⟨_, .connectToInput V ep, ⟨hi.rep, hi.sorted, hi.free, hi.channels, hi.frames,
      (by intro e he; injection he with he; subst he; exact hc), hi.outKind⟩, hV.node, hV.running,
      rfl, hV.toSystem, hV.frames, hV.time⟩

theorem processCommands_looks [Zero S] [Add S] {ops : NodeOps S P C} {mf mc sr : Nat}
    (hm : 0 < mf) (cs : List (Command P C × Luck)) : ∀ (E E' : Processor S P) (V : View P),
    EInv ops mf mc sr E → Looks E mf mc sr V → (∀ c ∈ cs, c.1.Api) →
    E.processCommands ops cs = .ok E' →
    ∃ W, Command.Effects ops V (cs.map Prod.fst) W ∧ Looks E' mf mc sr W ∧ EInv ops mf mc sr E' := by
  induction cs with
  | nil => intro E E' V hE hV _ h; injection h with h; subst h; exact ⟨V, .nil V, hV, hE⟩
  | cons c cs ih =>
    intro E E' V hE hV hc h
    obtain ⟨E1, h1, h2⟩ := foldlM_cons_ok h
    obtain ⟨W, e1, e2⟩ := apply_looks hE hV (hc c (by simp)) h1
    obtain ⟨X, i1, i2, i3⟩ := ih _ _ W (apply_inv hm hE (hc c (by simp)) h1) e2
      (fun d hd => hc d (by simp [hd])) h2
    exact ⟨X, .cons e1 i1, i2, i3⟩

/-- The timestamp nearest to a time. -/
theorem fromSamples_nearest (n sr : Nat) : NearestTime n sr (Timestamp.fromSamples n sr) := by
  intro u
  have h := Timestamp.fromSamples_error (n : ℚ) sr
  have key : ∀ v : Int, |(v : ℚ) / 2 ^ 32 - (n : ℚ) / sr| =
      |(v : ℚ) - (n : ℚ) / sr * Timestamp.one| / 2 ^ 32 := by
    intro v
    rw [show (v : ℚ) / 2 ^ 32 - (n : ℚ) / sr =
      ((v : ℚ) - (n : ℚ) / sr * Timestamp.one) / 2 ^ 32 by simp only [Timestamp.one]; ring, abs_div]
    norm_num
  rw [key, key]
  apply div_le_div_of_nonneg_right _ (by norm_num)
  by_cases hu : u = Timestamp.fromSamples n sr
  · rw [hu]
  · generalize (n : ℚ) / sr * Timestamp.one = x at *
    generalize Timestamp.fromSamples n sr = t at *
    have h1 : (1 : ℚ) ≤ |(u : ℚ) - t| := by
      have : (1 : Int) ≤ |u - t| := Int.one_le_abs (sub_ne_zero.mpr hu)
      exact_mod_cast this
    have h2 : |(u : ℚ) - t| ≤ |(u : ℚ) - x| + |(t : ℚ) - x| := by
      rw [abs_sub_comm (t : ℚ) x]
      exact abs_sub_le _ _ _
    linarith

theorem process_looks [AddZeroClass S] {ops : NodeOps S P C} {mf mc sr : Nat} (hm : 0 < mf)
    {E E' : Processor S P} {V : View P} (hE : EInv ops mf mc sr E) (hV : Looks E mf mc sr V)
    {k : Call S P C} (hk : k.Valid) {o' : Buf S}
    (h : E.process ops k.env k.commands k.input k.output = .ok (o', E')) :
    ∃ W, View.Call ops mf mc sr V k o'.sample? W ∧ Looks E' mf mc sr W ∧ EInv ops mf mc sr E' ∧
      k.output.SameShape o' := by
  obtain ⟨E0, o0, p1, p2, p3, p4, p5, p6, p7⟩ := process_parts hk.outWF hk.writable h
  obtain ⟨W, e1, e2, e3⟩ := processCommands_looks hm _ _ _ V hE hV hk.api p1
  have en : o0.frameCount ≤ k.input.frameCount := by rw [← p3.frameCount]; exact hk.enough
  have hz : ∀ c f, c < o0.channelCount → f < o0.frameCount → o0.sample? c f = some 0 := by
    rw [← p3.frameCount, ← p3.channelCount]; exact p6
  obtain ⟨hE', _, _, hsh, _⟩ := render_inv hm e3 hk.inWF p4 p5 en hz p7
  cases hs : E0.started with
  | false =>
    obtain ⟨rfl, rfl⟩ := render_stopped hs p7
    refine ⟨W, .stopped V W k _ e1 (by rw [← e2.running, hs]) ?_, e2, hE', p3⟩
    intro c f
    split_ifs with hcf
    · exact p6 c f hcf.1 hcf.2
    · refine Buf.sample?_eq_none _ c f ?_
      rw [← p3.frameCount, ← p3.channelCount]
      exact hcf
  | true =>
    obtain ⟨G', h1, rfl⟩ := render_started hs p7
    rw [e3.frames, e3.rate] at h1
    obtain ⟨_, c2, c3, c4, _, _, _, _, c9, _⟩ := renderedLoop hm hk.inWF _ _ _ _ _ _ e3.reach e2.inv p4
      p5 en (Nat.zero_le _) (fun c f hc _ hf => hz c f hc hf) h1
    rw [← p3.frameCount, ← p3.channelCount, e2.fromSystem, e2.toSystem] at c9
    have hn : E0.graph.graph.getNode = W.node := funext e2.node
    rw [hn] at c9
    refine ⟨_, .running V W k E0.currentTime G'.graph.getNode _ e1 (by rw [← e2.running, hs]) ?_ c9,
      ⟨c2, fun _ => rfl, (hs.symm.trans e2.running ▸ hs), ?_, ?_, ?_, ?_⟩, hE', p3.trans hsh⟩
    · rw [e2.time, ← e2.frames]; exact fromSamples_nearest _ _
    · simp only [updatePosition]; rw [c3]; exact e2.fromSystem
    · simp only [updatePosition]; rw [c4]; exact e2.toSystem
    · simp only [updatePosition]; rw [e2.frames, p3.frameCount]
    · simp only [updatePosition]; rw [e3.rate]; rfl

theorem calls_looks [AddZeroClass S] {ops : NodeOps S P C} {mf mc sr : Nat} (hm : 0 < mf)
    (ks : List (Call S P C)) : ∀ (E : Processor S P), (∀ k ∈ ks, k.Valid) →
    calls ops (new sr mc mf) ks = .ok E →
    ∃ V, View.Session ops mf mc sr ks V ∧ Looks E mf mc sr V ∧ EInv ops mf mc sr E := by
  induction ks using List.reverseRecOn with
  | nil =>
    intro E _ h
    injection h with h
    subst h
    exact ⟨_, .nil, looks_new .., einv_new ..⟩
  | append_singleton ks k ih =>
    intro E hk h
    obtain ⟨E1, h1, h2⟩ := (calls_append _ _ _ _).mp h
    obtain ⟨V, i1, i2, i3⟩ := ih E1 (fun l hl => hk l (by simp [hl])) h1
    obtain ⟨o, E2, h3, h4⟩ := calls_cons h2
    injection h4 with h4
    subst h4
    obtain ⟨W, j1, j2, j3, _⟩ := process_looks hm i3 i2 (hk k (by simp)) h3
    exact ⟨W, .snoc i1 j1, j2, j3⟩

end Processor
end Rawdio
