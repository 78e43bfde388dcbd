import Verif.Lemmas.RenderAll

/-! Helper lemmas about a whole process call and about the engine's graph between calls. -/

namespace Rawdio
namespace DspGraph

open Graph

variable {S P C : Type} [Zero S]

/-- All buffers are free and silent. -/
def AllFree (D : Dims) (pools : Pools S) : Prop :=
  pools.free = List.replicate maxBuffers (Buf.new D.fr D.ch D.sr) ∧ pools.assigned = []

/-- The invariant of the engine's graph between calls. -/
structure Inv (D : Dims) (G : DspGraph S P) (p : Patch Connection) : Prop where
  rep : Rep G.graph p
  sorted : G.needsSort = false → p.ValidOrder G.order ∧ p.NoParallel
  free : AllFree D G.pools
  channels : G.maxChannels = D.ch
  frames : G.maxFrames = D.fr
  inKind : ∀ ep, G.inputEndpoint = some ep → ep.kind = .input
  outKind : ∀ ep, G.outputEndpoint = some ep → ep.kind = .output

variable {D : Dims} {N k : Nat}

theorem drain_fold : ∀ (ks : List Endpoint) (pools : Pools S)
    (m : Endpoint → Option (Nat → Nat → S)) (k : Nat),
    PI D N k pools m → ks.Nodup → (∀ ep ∈ ks, (m ep).isSome) →
    ∃ pools' m', ks.foldlM Pools.drainOne pools = .ok pools' ∧ PI D N (k - ks.length) pools' m' := by
  intro ks
  induction ks with
  | nil => intro pools m k h _ _; exact ⟨pools, m, rfl, h⟩
  | cons ep ks ih =>
    intro pools m k h hnd hm
    rw [List.nodup_cons] at hnd
    obtain ⟨x, hx⟩ := Option.isSome_iff_exists.mp (hm ep (List.mem_cons_self ..))
    obtain ⟨b, hb, hbx⟩ := h.present ep x hx
    have hg : pools.getBuffer ep = .ok (b, { pools with assigned := pools.assigned.remove ep }) := by
      simp only [Pools.getBuffer, hb]
    obtain ⟨N', rfl, hb', hp⟩ := h.take hg
    obtain ⟨pools1, h1, hp1⟩ := hp.giveBack hb'
    rw [hx, Option.isSome_some, if_pos rfl] at hp1
    obtain ⟨pools2, m', h2, hp2⟩ := ih pools1 _ _ hp1 hnd.2 (by
      intro e he
      rw [Function.update_of_ne (by rintro rfl; exact hnd.1 he)]
      exact hm e (List.mem_cons_of_mem _ he))
    refine ⟨pools2, m', ?_, ?_⟩
    · rw [List.foldlM_cons]
      refine (ok_bind ?_).trans h2
      simp only [Pools.drainOne, hb]
      exact h1
    · have : k - 1 - ks.length = k - (ks.length + 1) := by omega
      rw [this] at hp2
      exact hp2

theorem drain_ok {pools : Pools S} {m : Endpoint → Option (Nat → Nat → S)}
    (h : PI D maxBuffers k pools m) (σ : IterOrder Endpoint) :
    ∃ pools', pools.drain σ = .ok pools' ∧ AllFree D pools' := by
  have hperm := σ.perm pools.assigned.keys
  have hlen : (pools.assigned.iterKeys σ).length = k := by
    rw [HMap.iterKeys, hperm.length_eq, HMap.keys, List.length_map]
    exact h.assigned
  obtain ⟨pools', m', h1, h2⟩ := drain_fold (pools.assigned.iterKeys σ) pools m k h
    (hperm.nodup_iff.mpr h.nodup) (by
      intro ep hep
      rw [HMap.mem_iterKeys] at hep
      cases hm : m ep with
      | some _ => rfl
      | none => rw [h.absent ep hm] at hep; simp at hep)
  refine ⟨pools', h1, ?_, ?_⟩
  · rw [List.eq_replicate_iff]
    refine ⟨?_, h2.free⟩
    have := h2.count
    have := h2.assigned
    omega
  · have := h2.assigned
    exact List.length_eq_zero_iff.mp (by omega)

/-- The system input delivered to its node. -/
def systemInput (input : Buf S) (channels frames : Nat) (c f : Nat) : S :=
  if c < channels ∧ f < frames then (input.sample? c f).getD 0 else 0

theorem takeInput_ok {pools : Pools S} (hf : AllFree D pools) (p : Patch Connection)
    {ep : Option Endpoint} (hk : ∀ e, ep = some e → e.kind = .input) {input : Buf S}
    (hw : input.WF) {channels frames : Nat} (h1 : channels ≤ input.channelCount)
    (h2 : channels ≤ D.ch) (h3 : frames ≤ input.frameCount) (h4 : frames ≤ D.fr) :
    ∃ pools', takeInput pools ep input channels frames = .ok pools' ∧
      PI D maxBuffers (pending p (ep.map Endpoint.dsp) []) pools'
        (poolMap p (ep.map Endpoint.dsp) (systemInput input channels frames) []
          (fun _ _ _ => 0)) := by
  obtain ⟨hfree, hass⟩ := hf
  have h0 : PI D maxBuffers 0 pools (fun _ => none) := by
    refine ⟨?_, ?_, ?_, ?_, ?_, ?_⟩
    · rw [hass]; exact List.nodup_nil
    · intro ep _; rw [hass]; rfl
    · intro ep x h; cases h
    · intro b hb
      rw [hfree] at hb
      exact List.eq_of_mem_replicate hb
    · rw [hfree, hass, List.length_replicate]; rfl
    · rw [hass]; rfl
  cases ep with
  | none =>
    refine ⟨pools, rfl, ?_⟩
    have : poolMap p ((none : Option Endpoint).map Endpoint.dsp) (systemInput input channels frames)
        [] (fun _ _ _ => 0) = fun _ => none := by
      funext e
      obtain ⟨kind, i⟩ := e
      cases kind <;> simp [poolMap]
    rw [this]
    exact h0
  | some ep =>
    have hkind := hk ep rfl
    obtain ⟨kind, j⟩ := ep
    simp only at hkind
    subst hkind
    have hr : List.replicate maxBuffers (Buf.new D.fr D.ch D.sr : Buf S) =
        Buf.new D.fr D.ch D.sr :: List.replicate (maxBuffers - 1) (Buf.new D.fr D.ch D.sr) := rfl
    have hnew : Holds D (Buf.new D.fr D.ch D.sr : Buf S) (fun _ _ => 0) := Holds.new
    obtain ⟨b', e1, hsh, hw', _, hs⟩ := Buf.copyFrom_spec (Buf.new D.fr D.ch D.sr) input hnew.wf
      hnew.writable hw Loc.origin Loc.origin channels frames
      (by simpa [Loc.origin] using h1) (by simpa [Loc.origin] using h3)
      (by rw [hnew.cc]; simpa [Loc.origin] using h2) (by rw [hnew.fc]; simpa [Loc.origin] using h4)
    have hb' : Holds D b' (systemInput input channels frames) := by
      refine hnew.of_sameShape hsh hw' ?_
      intro c f hc hff
      rw [hs]
      simp only [Loc.origin, Nat.zero_le, true_and, Nat.zero_add, Nat.sub_zero, systemInput]
      split_ifs with hh
      · obtain ⟨v, hv⟩ := Buf.sample?_isSome input hw c f (by omega) (by omega)
        rw [hv]; rfl
      · exact hnew.get c f hc hff
    have hg : pools.getBuffer ⟨.input, j⟩ = .ok (Buf.new D.fr D.ch D.sr,
        { pools with free := List.replicate (maxBuffers - 1) (Buf.new D.fr D.ch D.sr) }) := by
      have hgn : pools.assigned.get? ⟨.input, j⟩ = none := by rw [hass]; rfl
      simp only [Pools.getBuffer, hgn, hfree]
      rw [hr]
    obtain ⟨N', hN, _, hp1⟩ := h0.take hg
    rw [Option.isSome_none, if_neg (by simp)] at hp1
    have hp2 := hp1.assign (ep := ⟨.input, j⟩) hb' (by rw [Function.update_self])
    refine ⟨Pools.assign { pools with
      free := List.replicate (maxBuffers - 1) (Buf.new D.fr D.ch D.sr) } ⟨.input, j⟩ b', ?_, ?_⟩
    · simp only [takeInput, hfree]
      rw [hr]
      simp only [e1, bind, Except.bind, pure, Except.pure]
    · have : poolMap p ((some (⟨.input, j⟩ : Endpoint)).map Endpoint.dsp)
          (systemInput input channels frames) [] (fun _ _ _ => 0) =
          Function.update (Function.update (fun _ => none) ⟨.input, j⟩ none) ⟨.input, j⟩
            (some (systemInput input channels frames)) := by
        funext e
        obtain ⟨kind, i⟩ := e
        cases kind with
        | output =>
          rw [Function.update_of_ne (by simp), Function.update_of_ne (by simp)]
          simp [poolMap]
        | input =>
          by_cases hij : i = j
          · subst hij; rw [Function.update_self]; simp [poolMap]
          · rw [Function.update_of_ne (by simpa using hij),
              Function.update_of_ne (by simpa using hij)]
            have : j ≠ i := fun h => hij h.symm
            simp [poolMap, this]
      rw [this]
      have : pending p ((some (⟨.input, j⟩ : Endpoint)).map Endpoint.dsp) [] = 0 + 1 := by
        simp [pending]
      rw [this, show maxBuffers = N' + 1 from hN]
      have e3 : maxBuffers - 1 = N' + 1 - 1 := by rw [hN]
      rw [e3] at hp2
      exact hp2

variable [Add S]

theorem giveOutput_ok {pools : Pools S} {m : Endpoint → Option (Nat → Nat → S)}
    (hp : PI D N k pools m) {ep : Option Endpoint} {output : Buf S} (hw : output.WF)
    (hm : output.Writable) {channels frames : Nat} (h1 : channels ≤ output.channelCount)
    (h2 : channels ≤ D.ch) (h3 : frames ≤ output.frameCount) (h4 : frames ≤ D.fr) :
    ∃ pools' o', giveOutput pools ep output channels frames = .ok (pools', o') ∧
      PI D N k pools' m ∧ output.SameShape o' ∧ o'.WF ∧ o'.Writable ∧ Buf.KeepsRest output o' ∧
      ∀ c f, o'.sample? c f =
        match ep.bind m with
        | some y => if c < channels ∧ f < frames then some (y c f) else output.sample? c f
        | none => output.sample? c f := by
  cases ep with
  | none =>
    exact ⟨pools, output, rfl, hp, Buf.SameShape.refl _, hw, hm, .refl _, fun _ _ => rfl⟩
  | some ep =>
    cases hme : m ep with
    | none =>
      refine ⟨pools, output, ?_, hp, Buf.SameShape.refl _, hw, hm, .refl _, ?_⟩
      · simp only [giveOutput, mixEndpoint, hp.absent ep hme, bind, Except.bind, pure, Except.pure]
      · intro c f
        simp only [Option.bind_some, hme]
    | some y =>
      obtain ⟨b, hb, hy⟩ := hp.present ep y hme
      obtain ⟨o', e1, hsh, hw', hm', hs⟩ := Buf.copyFrom_spec output b hw hm hy.wf
        (Loc.ofChannel 0) (Loc.ofChannel 0) channels frames
        (by rw [hy.cc]; simpa [Loc.ofChannel] using h2)
        (by rw [hy.fc]; simpa [Loc.ofChannel] using h4)
        (by simpa [Loc.ofChannel] using h1) (by simpa [Loc.ofChannel] using h3)
      refine ⟨⟨pools.free, (pools.assigned.remove ep).insert ep b⟩, o', ?_, hp.reinsert hb, hsh, hw',
        hm', Buf.copyFrom_keepsRest output hw hm b hy.wf channels frames (by rw [hy.cc]; exact h2)
          (by rw [hy.fc]; exact h4) h1 h3 e1, ?_⟩
      · simp only [giveOutput, mixEndpoint, hb, mixBuffer, e1, bind, Except.bind, pure, Except.pure]
      · intro c f
        rw [hs]
        simp only [Loc.ofChannel, Nat.zero_le, true_and, Nat.zero_add, Nat.sub_zero,
          Option.bind_some, hme]
        split_ifs with hh
        · exact hy.get c f (by omega) (by omega)
        · rfl

omit [Zero S] [Add S] in
theorem sortGraph_ok {env : Env} {G G' : DspGraph S P} {p : Patch Connection} (hr : Rep G.graph p)
    (hv : G.needsSort = false → p.ValidOrder G.order ∧ p.NoParallel) (h : G.sortGraph env = .ok G') :
    ∃ order, (p.ValidOrder order ∧ p.NoParallel) ∧ G' = { G with order := order, needsSort := false } := by
  unfold sortGraph at h
  cases hn : G.needsSort with
  | true =>
    rw [hn, if_pos rfl] at h
    obtain ⟨order, h1, h2⟩ := bind_ok h
    injection h2 with h2
    exact ⟨order, TopologicalSort.sort_ok hr h1, h2.symm⟩
  | false =>
    rw [hn, if_neg (by simp)] at h
    injection h with h
    refine ⟨G.order, hv hn, ?_⟩
    rw [← h]
    cases G
    simp only at hn
    subst hn
    rfl

/-- The samples of a block's output. -/
def outputSample (old : Option S) (y : Option (Nat → Nat → S)) (channels frames c f : Nat) :
    Option S :=
  match y with
  | some y => if c < channels ∧ f < frames then some (y c f) else old
  | none => old

/-- Everything that is known after a process call that did not fail. -/
structure Done (D : Dims) (ops : NodeOps S P C) (p : Patch Connection) (G : DspGraph S P)
    (input output : Buf S) (t : Int) (o' : Buf S) (G' : DspGraph S P) (sig : Signals S) :
    Prop where
  inv : Inv D G' p
  clean : G'.needsSort = false
  same : G'.inputEndpoint = G.inputEndpoint ∧ G'.outputEndpoint = G.outputEndpoint ∧
    G'.garbage = G.garbage
  few : p.nodes.length ≤ maxBuffers
  ran : ∀ i ∈ p.nodes, Ran D ops (min output.frameCount D.fr) t p
    (baseOf (G.inputEndpoint.map Endpoint.dsp)
      (systemInput input (min input.channelCount D.ch) (min output.frameCount D.fr)))
    G.graph.getNode G'.graph.getNode sig i
  shape : output.SameShape o'
  wf : o'.WF
  writable : o'.Writable
  rest : Buf.KeepsRest output o'
  out : ∀ c f, o'.sample? c f = outputSample (output.sample? c f)
    (G.outputEndpoint.bind (fun ep => if ep.dsp ∈ p.nodes then some (sig ep.dsp) else none))
    (min output.channelCount D.ch) (min output.frameCount D.fr) c f

theorem process_ok {ops : NodeOps S P C} {env : Env} {p : Patch Connection} {G G' : DspGraph S P}
    {input output o' : Buf S} {t : Int} (hG : Inv D G p) (hi : input.WF) (ho : output.WF)
    (hm : output.Writable) (hf : 0 < output.frameCount) (hD : 0 < D.fr)
    (hif : output.frameCount ≤ input.frameCount)
    (h : process ops env G input output t = .ok (o', G')) :
    ∃ sig, Done D ops p G input output t o' G' sig := by
  obtain ⟨G1, h1, h⟩ := bind_ok h
  obtain ⟨pools, h2, h⟩ := bind_ok h
  obtain ⟨r, h3, h⟩ := bind_ok h
  obtain ⟨o, h4, h⟩ := bind_ok h
  obtain ⟨pools', h5, h⟩ := bind_ok h
  injection h with h
  obtain ⟨rfl, rfl⟩ := Prod.mk.inj h
  obtain ⟨order, ⟨hv, hnp'⟩, rfl⟩ := sortGraph_ok hG.rep hG.sorted h1
  have hn0 : 0 < min output.frameCount D.fr := by omega
  have hn : min output.frameCount D.fr ≤ D.fr := Nat.min_le_right ..
  rw [hG.frames, hG.channels] at h2 h4
  rw [hG.frames] at h3
  obtain ⟨pools1, e2, hpi⟩ := takeInput_ok hG.free p hG.inKind hi
    (channels := min input.channelCount D.ch) (frames := min output.frameCount D.fr)
    (Nat.min_le_left ..) (Nat.min_le_right ..) (by omega) hn
  rw [show takeInput _ _ _ _ _ = _ from e2] at h2
  injection h2 with h2
  subst h2
  obtain ⟨sig, hloop⟩ := LoopInv.fold hn0 hn order [] _ _ _ (by simpa using hv)
    (LoopInv.start (ops := ops) (t := t) hG.rep hpi) h3
  rw [List.nil_append] at hloop
  obtain ⟨pools2, o2, e4, hpi2, hsh, hw', hm', hk, hs⟩ := giveOutput_ok hloop.pi
    (ep := G.outputEndpoint) (output := output) ho hm
    (channels := min output.channelCount D.ch) (frames := min output.frameCount D.fr)
    (Nat.min_le_left ..) (Nat.min_le_right ..) (Nat.min_le_left ..) hn
  rw [show giveOutput _ _ _ _ _ = _ from e4] at h4
  injection h4 with h4
  subst h4
  obtain ⟨pools3, e5, hfree⟩ := drain_ok hpi2 env.drain
  rw [show Pools.drain _ _ = _ from e5] at h5
  injection h5 with h5
  subst h5
  have hperm : order.length = p.nodes.length := by
    refine (List.perm_of_nodup_nodup_toFinset_eq hv.nodup hG.rep.nodupP ?_).length_eq
    ext i
    simp [hv.complete i]
  refine ⟨sig, ⟨⟨hloop.rep, fun _ => ⟨hv, hnp'⟩, hfree, hG.channels, hG.frames, hG.inKind, hG.outKind⟩, rfl,
    ⟨rfl, rfl, rfl⟩, ?_, ?_, hsh, hw', hm', hk, ?_⟩⟩
  · have h1 := hloop.pi.count
    have h2 := hloop.pi.assigned
    omega
  · intro i hi
    exact hloop.ran i ((hv.complete i).mpr hi)
  · intro c f
    have := hs c f
    rw [this]
    unfold outputSample
    cases hoe : G.outputEndpoint with
    | none => rfl
    | some ep =>
      have hk := hG.outKind ep hoe
      obtain ⟨kind, j⟩ := ep
      simp only at hk
      subst hk
      simp only [Option.bind_some, poolMap, hv.complete]

theorem process_of_fold {ops : NodeOps S P C} {env : Env} {p : Patch Connection} {G : DspGraph S P}
    {input output : Buf S} {t : Int} (hG : Inv D G p) (hi : input.WF) (ho : output.WF)
    (hm : output.Writable) (hf : 0 < output.frameCount) (hD : 0 < D.fr)
    (hif : output.frameCount ≤ input.frameCount)
    (hac : p.Acyclic) (hnp : p.NoParallel)
    (hfold : ∀ order pools, p.ValidOrder order → order.length = p.nodes.length →
      LoopInv D ops (min output.frameCount D.fr) t G.graph p (G.inputEndpoint.map Endpoint.dsp)
        (systemInput input (min input.channelCount D.ch) (min output.frameCount D.fr)) maxBuffers []
        (fun _ _ _ => 0) pools G.graph →
      ∃ r, order.foldlM (processDsp ops env (min output.frameCount D.fr) t) (pools, G.graph) =
        .ok r) :
    ∃ r, process ops env G input output t = .ok r := by
  have hsort : ∃ G1, G.sortGraph env = .ok G1 := by
    unfold sortGraph
    split_ifs
    · obtain ⟨Dm, order, hiv, hst, hs⟩ := TopologicalSort.sort_cases hG.rep env.sortInit env.sortDeps
        env.sortNodes
      have hall := hiv.complete hst (fun c hc => (hG.rep.ends c hc).1) hac hnp
      have hlen : order.length = p.nodes.length := by
        have a := (List.subperm_of_subset hiv.nodup hiv.sub).length_le
        have b := (List.subperm_of_subset hG.rep.nodupP hall).length_le
        omega
      rw [hs, if_pos hlen]
      exact ⟨_, rfl⟩
    · exact ⟨_, rfl⟩
  obtain ⟨G1, h1⟩ := hsort
  obtain ⟨order, ⟨hv, hnp'⟩, rfl⟩ := sortGraph_ok hG.rep hG.sorted h1
  have hn0 : 0 < min output.frameCount D.fr := by omega
  have hn : min output.frameCount D.fr ≤ D.fr := Nat.min_le_right ..
  obtain ⟨pools1, e2, hpi⟩ := takeInput_ok hG.free p hG.inKind hi
    (channels := min input.channelCount D.ch) (frames := min output.frameCount D.fr)
    (Nat.min_le_left ..) (Nat.min_le_right ..) (by omega) hn
  have hperm : order.length = p.nodes.length := by
    refine (List.perm_of_nodup_nodup_toFinset_eq hv.nodup hG.rep.nodupP ?_).length_eq
    ext i
    simp [hv.complete i]
  have hst := LoopInv.start (ops := ops) (t := t) (frames := min output.frameCount D.fr) hG.rep hpi
  obtain ⟨r, h3⟩ := hfold order _ hv hperm hst
  obtain ⟨sig, hloop⟩ := LoopInv.fold hn0 hn order [] _ _ _ (by simpa using hv) hst h3
  obtain ⟨pools2, o2, e4, hpi2, _⟩ := giveOutput_ok hloop.pi
    (ep := G.outputEndpoint) (output := output) ho hm
    (channels := min output.channelCount D.ch) (frames := min output.frameCount D.fr)
    (Nat.min_le_left ..) (Nat.min_le_right ..) (Nat.min_le_left ..) hn
  obtain ⟨pools3, e5, hfree⟩ := drain_ok hpi2 env.drain
  refine ⟨(o2, { G with order := order, needsSort := false, pools := pools3, graph := r.2 }), ?_⟩
  unfold process
  rw [hG.frames, hG.channels]
  refine (ok_bind h1).trans ?_
  refine (ok_bind e2).trans ?_
  refine (ok_bind h3).trans ?_
  refine (ok_bind e4).trans ?_
  refine (ok_bind e5).trans ?_
  simp only [hG.frames, hG.channels]
  rfl

theorem process_progress {ops : NodeOps S P C} {env : Env} {p : Patch Connection} {G : DspGraph S P}
    {input output : Buf S} {t : Int} (hG : Inv D G p) (hi : input.WF) (ho : output.WF)
    (hm : output.Writable) (hf : 0 < output.frameCount) (hD : 0 < D.fr)
    (hif : output.frameCount ≤ input.frameCount)
    (hac : p.Acyclic) (hnp : p.NoParallel) (hN : p.nodes.length + 2 ≤ maxBuffers)
    (hruns : ∀ i ∈ p.nodes, Runs D ops (min output.frameCount D.fr) t G.graph.getNode i ∧
      InputFits D.ch (p.at' i .incoming)) :
    ∃ r, process ops env G input output t = .ok r := by
  refine process_of_fold hG hi ho hm hf hD hif hac hnp ?_
  intro order pools hv hlen hst
  exact LoopInv.fold_progress (env := env) (by omega) (Nat.min_le_right ..) hruns order [] _ _ _
    (by simpa using hv) (by simpa [hlen] using hN) hst

end DspGraph
end Rawdio
