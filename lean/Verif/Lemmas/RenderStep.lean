import Verif.Lemmas.Render
import Verif.Lemmas.SliceWrite

/-! Helper lemmas about rendering one node. -/

namespace Rawdio
namespace DspGraph

variable {S P C : Type} [Zero S] {D : Dims} {N k : Nat} {pools pools' : Pools S}
  {m : Endpoint → Option (Nat → Nat → S)}

/-- The single source whose buffer is handed over as it is. -/
def fastSource : List (Conn Connection) → Option Id
  | [k] => if k.data.destinationChannel = 0 ∧ k.data.sourceChannel = 0 then some k.src else none
  | _ => none

/-- The input the code gives to a node with connections `ks` and pre-filled input `base`. -/
def builtInput [Add S] (frames : Nat) (sig : Signals S) (base : Nat → Nat → S)
    (ks : List (Conn Connection)) : Nat → Nat → S :=
  match fastSource ks with
  | some s => sig s
  | none => mixAll frames sig .overwrite ks base

theorem edge_of_shows {g : Graph (Dsp P) Connection} {p : Patch Connection} (h : g.Shows p) {i : Id}
    {kk : Conn Connection} (hk : kk ∈ p.at' i .incoming) :
    ∃ e, g.getEdge kk.id = some e ∧ e.fromNode = kk.src ∧ e.data = kk.data := by
  obtain ⟨e, h1, h2, _, h4⟩ := h.ends kk (Graph.mem_at.mp hk).1
  exact ⟨e, h1, h2, h4⟩

variable [Add S]

theorem prepareMany_ok {env : Env} {g : Graph (Dsp P) Connection} {p : Patch Connection}
    (hs : g.Shows p) {i : Id} (hi : i ∈ p.nodes) {n : Nat} (hn0 : 0 < n) (hn : n ≤ D.fr)
    {sig : Signals S} (hp : PI D N k pools m)
    (hsrc : ∀ kk ∈ p.at' i .incoming, m ⟨.output, kk.src⟩ = some (sig kk.src)) {pr : Prepared S}
    (h : prepareMany env pools g i n = .ok pr) :
    ∃ N', N = N' + 1 ∧
      Holds D pr.buffer (mixAll n sig .overwrite (p.at' i .incoming) (found m ⟨.input, i⟩)) ∧
      pr.endpoint = ⟨.input, i⟩ ∧
      PI D N' (if (m ⟨.input, i⟩).isSome then k - 1 else k) pr.pools
        (Function.update m ⟨.input, i⟩ none) ∧
      ∀ kk ∈ p.at' i .incoming, ConnFits D.ch kk := by
  obtain ⟨r, h1, h⟩ := bind_ok h
  obtain ⟨mm, h2, h⟩ := bind_ok h
  injection h with h
  subst h
  obtain ⟨N', hN, hx, hp'⟩ := hp.take h1
  unfold copyOutputFromDependencies at h2
  rw [hs.edges i hi .incoming] at h2
  obtain ⟨ids, h3, h2⟩ := bind_ok h2
  injection h3 with h3
  subst h3
  obtain ⟨s', h4, h2⟩ := bind_ok h2
  injection h2 with h2
  subst h2
  obtain ⟨q1, q2, q3⟩ := mixEdges_ok hn0 hn r.2.free _ ⟨r.2.assigned, r.1, .overwrite⟩ s' _
    (fun kk hk => edge_of_shows hs hk)
    (by
      intro kk hk
      rw [Function.update_of_ne (by simp)]
      exact hsrc kk hk) hp' hx h4
  exact ⟨N', hN, q3, rfl, q2, q1⟩

theorem prepareInput_ok {env : Env} {g : Graph (Dsp P) Connection} {p : Patch Connection}
    (hs : g.Shows p) {i : Id} (hi : i ∈ p.nodes) {n : Nat} (hn0 : 0 < n) (hn : n ≤ D.fr)
    {sig : Signals S} (hp : PI D N k pools m)
    (hsrc : ∀ kk ∈ p.at' i .incoming, m ⟨.output, kk.src⟩ = some (sig kk.src)) {pr : Prepared S}
    (h : prepareInput env pools g i n = .ok pr) :
    ∃ N', N = N' + 1 ∧
      Holds D pr.buffer (builtInput n sig (found m ⟨.input, i⟩) (p.at' i .incoming)) ∧
      ((∃ s, fastSource (p.at' i .incoming) = some s ∧ pr.endpoint = ⟨.output, s⟩ ∧
          PI D N' (k - 1) pr.pools (Function.update m ⟨.output, s⟩ none)) ∨
        (fastSource (p.at' i .incoming) = none ∧ pr.endpoint = ⟨.input, i⟩ ∧
          PI D N' (if (m ⟨.input, i⟩).isSome then k - 1 else k) pr.pools
            (Function.update m ⟨.input, i⟩ none) ∧
          ∀ kk ∈ p.at' i .incoming, ConnFits D.ch kk)) := by
  unfold prepareInput Graph.connectionCount at h
  rw [hs.nbrs i hi .incoming] at h
  change (if _ then _ else _) = _ at h
  rw [List.length_map] at h
  cases hks : p.at' i .incoming with
  | nil =>
    rw [hks] at h hsrc
    rw [if_pos (by rfl)] at h
    obtain ⟨r, h1, h⟩ := bind_ok h
    injection h with h
    subst h
    obtain ⟨N', hN, hx, hp'⟩ := hp.take h1
    exact ⟨N', hN, hx, .inr ⟨rfl, rfl, hp', by simp⟩⟩
  | cons kk ks =>
    have hmany : fastSource (p.at' i .incoming) = none → prepareMany env pools g i n = .ok pr →
        ∃ N', N = N' + 1 ∧
      Holds D pr.buffer (builtInput n sig (found m ⟨.input, i⟩) (p.at' i .incoming)) ∧
      ((∃ s, fastSource (p.at' i .incoming) = some s ∧ pr.endpoint = ⟨.output, s⟩ ∧
          PI D N' (k - 1) pr.pools (Function.update m ⟨.output, s⟩ none)) ∨
        (fastSource (p.at' i .incoming) = none ∧ pr.endpoint = ⟨.input, i⟩ ∧
          PI D N' (if (m ⟨.input, i⟩).isSome then k - 1 else k) pr.pools
            (Function.update m ⟨.input, i⟩ none) ∧
          ∀ kk ∈ p.at' i .incoming, ConnFits D.ch kk)) := by
      intro hfast hm
      obtain ⟨N', q1, q2, q3, q4, q5⟩ := prepareMany_ok hs hi hn0 hn hp hsrc hm
      refine ⟨N', q1, ?_, .inr ⟨hfast, q3, q4, q5⟩⟩
      rw [builtInput, hfast]
      exact q2
    rw [if_neg (by rw [hks]; simp)] at h
    rw [hks] at hmany
    cases ks with
    | nil =>
      rw [if_pos (by rw [hks]; rfl)] at h
      unfold prepareSingle at h
      rw [hs.edges i hi .incoming, hks] at h
      have hmem : kk ∈ p.at' i .incoming := by rw [hks]; exact List.mem_cons_self ..
      obtain ⟨e, e1, e2, e3⟩ := edge_of_shows hs hmem
      change (match g.getEdge kk.id with | none => _ | some e => _) = _ at h
      rw [e1] at h
      simp only [e2, e3] at h
      by_cases hz : kk.data.destinationChannel = 0 ∧ kk.data.sourceChannel = 0
      · rw [if_pos hz] at h
        obtain ⟨r, h1, h⟩ := bind_ok h
        injection h with h
        subst h
        have hfast : fastSource [kk] = some kk.src := by
          change (if _ then _ else _) = _; rw [if_pos hz]
        obtain ⟨N', hN, hx, hp'⟩ := hp.take h1
        have hm := hsrc kk hmem
        rw [hm, Option.isSome_some, if_pos rfl] at hp'
        rw [found, hm, Option.getD_some] at hx
        refine ⟨N', hN, ?_, .inl ⟨kk.src, hfast, rfl, hp'⟩⟩
        rw [builtInput, hfast]
        exact hx
      · rw [if_neg hz] at h
        exact hmany (by change (if _ then _ else _) = _; rw [if_neg hz]) h
    | cons k2 ks =>
      rw [if_neg (by rw [hks]; simp)] at h
      exact hmany rfl h

/-- A node's connections fit: always when the single source's buffer is handed over. -/
def InputFits (ch : Nat) (ks : List (Conn Connection)) : Prop :=
  fastSource ks = none → ∀ kk ∈ ks, ConnFits ch kk

theorem prepareInput_progress {env : Env} {g : Graph (Dsp P) Connection} {p : Patch Connection}
    (hs : g.Shows p) {i : Id} (hi : i ∈ p.nodes) {n : Nat} (hn : n ≤ D.fr)
    {sig : Signals S} (hp : PI D N k pools m) (hk : k < N)
    (hsrc : ∀ kk ∈ p.at' i .incoming, m ⟨.output, kk.src⟩ = some (sig kk.src))
    (hfit : InputFits D.ch (p.at' i .incoming)) :
    ∃ pr, prepareInput env pools g i n = .ok pr := by
  unfold prepareInput Graph.connectionCount
  rw [hs.nbrs i hi .incoming]
  simp only [bind, Except.bind, pure, Except.pure, List.length_map]
  have hmany : fastSource (p.at' i .incoming) = none →
      ∃ pr, prepareMany env pools g i n = .ok pr := by
    intro hf
    obtain ⟨b, pools1, h1⟩ := hp.take_progress (ep := ⟨.input, i⟩) hk
    obtain ⟨N', hN, hx, hp'⟩ := hp.take h1
    obtain ⟨s', hs'⟩ := mixEdges_progress (env := env) (g := g) (sig := sig) hn pools1.free _
      ⟨pools1.assigned, b, .overwrite⟩ _
      (fun kk hk => edge_of_shows hs hk)
      (by
        intro kk hk
        rw [Function.update_of_ne (by simp)]
        exact hsrc kk hk) (hfit hf) hp' hx
    refine ⟨⟨s'.out, ⟨.input, i⟩, { pools1 with assigned := s'.assigned }⟩, ?_⟩
    unfold prepareMany copyOutputFromDependencies
    rw [h1, hs.edges i hi .incoming]
    simp only [bind, Except.bind] at hs' ⊢
    rw [hs']
    rfl
  cases hks : p.at' i .incoming with
  | nil =>
    rw [if_pos (by rfl)]
    obtain ⟨b, pools1, h1⟩ := hp.take_progress (ep := ⟨.input, i⟩) hk
    refine ⟨⟨b, ⟨.input, i⟩, pools1⟩, ?_⟩
    unfold prepareZero
    rw [h1]
    rfl
  | cons kk ks =>
    rw [hks] at hmany
    rw [if_neg (by simp)]
    cases ks with
    | nil =>
      rw [if_pos (by rfl)]
      unfold prepareSingle
      rw [hs.edges i hi .incoming, hks]
      have hmem : kk ∈ p.at' i .incoming := by rw [hks]; exact List.mem_cons_self ..
      obtain ⟨e, e1, e2, e3⟩ := edge_of_shows hs hmem
      simp only [bind, Except.bind, List.map_cons, e1, e2, e3]
      by_cases hz : kk.data.destinationChannel = 0 ∧ kk.data.sourceChannel = 0
      · rw [if_pos hz]
        obtain ⟨b, pools1, h1⟩ := hp.take_progress (ep := ⟨.output, kk.src⟩) hk
        refine ⟨⟨b, ⟨.output, kk.src⟩, pools1⟩, ?_⟩
        rw [h1]; rfl
      · rw [if_neg hz]
        exact hmany (by change (if _ then _ else _) = _; rw [if_neg hz])
    | cons k2 ks =>
      rw [if_neg (by simp)]
      exact hmany rfl

omit [Add S] in
theorem slice_view {b : Buf S} {x : Nat → Nat → S} (hx : Holds D b x) {M n : Nat} (hM : M ≤ D.ch)
    (hn : n ≤ D.fr) (mu : Bool) : (Buf.slice b ⟨0, 0, M, n⟩ mu).view = window M n x := by
  have hw : (Buf.slice b ⟨0, 0, M, n⟩ mu).WF := by
    refine ⟨hx.wf, ?_, ?_⟩
    · simp only; rw [hx.cc]; omega
    · simp only; rw [hx.fc]; omega
  rw [Buf.view_eq _ hw]
  funext c f
  simp only [Buf.sample?, window, Nat.add_zero]
  split_ifs with h
  · exact hx.get c f (by omega) (by omega)
  · rfl

omit [Add S] in
theorem processAudio_eq (ops : NodeOps S P C) (d : Dsp P) (t : Int) {ob ib : Buf S}
    {x : Nat → Nat → S} (ho : Holds D ob silence) (hx : Holds D ib x) {n : Nat} (hn : n ≤ D.fr)
    (hoc : d.outputCount ≤ D.ch) (hic : d.inputCount ≤ D.ch) :
    d.processAudio ops (Buf.slice ib ⟨0, 0, d.inputCount, n⟩ false)
        (Buf.slice ob ⟨0, 0, d.outputCount, n⟩ true) t =
      (ops.run d.state ⟨n, D.sr, t, window d.inputCount n x, window d.outputCount n silence⟩ >>=
        fun r => (Buf.slice ob ⟨0, 0, d.outputCount, n⟩ true).writeAll r.1 >>= fun o =>
          .ok (o, { d with state := r.2 })) := by
  unfold Dsp.processAudio
  have hsr : (Buf.slice ob ⟨0, 0, d.outputCount, n⟩ true).sampleRate = D.sr := by
    obtain ⟨dd, rfl, _⟩ := ho.shape; rfl
  have h1 : (Buf.slice ib ⟨0, 0, d.inputCount, n⟩ false).channelCount = d.inputCount := rfl
  have h2 : (Buf.slice ob ⟨0, 0, d.outputCount, n⟩ true).channelCount = d.outputCount := rfl
  have h3 : (Buf.slice ob ⟨0, 0, d.outputCount, n⟩ true).frameCount = n := rfl
  rw [if_pos h1, if_pos h2, h3, hsr, slice_view hx hic hn, slice_view ho hoc hn]
  rfl

omit [Add S] in
theorem runNode_ok {ops : NodeOps S P C} {g g' : Graph (Dsp P) Connection} {i : Id} {d : Dsp P}
    (hd : g.getNode i = some d) {ob ib b' : Buf S} {x : Nat → Nat → S} (ho : Holds D ob silence)
    (hx : Holds D ib x) {n : Nat} {t : Int} (hn : n ≤ D.fr)
    (h : runNode ops g i ob ib n t = .ok (b', g')) :
    d.outputCount ≤ D.ch ∧ d.inputCount ≤ D.ch ∧ ∃ out st,
      ops.run d.state ⟨n, D.sr, t, window d.inputCount n x, window d.outputCount n silence⟩ =
        .ok (out, st) ∧
      Holds D b' (fun c f => if c < d.outputCount ∧ f < n then out c f else 0) ∧
      g' = g.setNode i { d with state := st } := by
  unfold runNode at h
  rw [hd] at h
  obtain ⟨os, h1, h⟩ := bind_ok h
  obtain ⟨is, h2, h⟩ := bind_ok h
  obtain ⟨r, h3, h⟩ := bind_ok h
  injection h with h
  obtain ⟨rfl, rfl⟩ := Prod.mk.inj h
  unfold Buf.sliceChannelsAndFrames Buf.mkSlice at h1 h2
  have hoc : d.outputCount ≤ D.ch := by
    by_contra hc
    rw [if_neg (by
      unfold Buf.rangeIsValid
      rw [ho.cc]
      simp; intro h; omega)] at h1
    cases h1
  have hic : d.inputCount ≤ D.ch := by
    by_contra hc
    rw [if_neg (by
      unfold Buf.rangeIsValid
      rw [hx.cc]
      simp; intro h; omega)] at h2
    cases h2
  split_ifs at h1 h2
  injection h1 with h1
  injection h2 with h2
  subst h1 h2
  rw [processAudio_eq ops d t ho hx hn hoc hic] at h3
  obtain ⟨⟨out, st⟩, h4, h3⟩ := bind_ok h3
  obtain ⟨p', h5, hsh, hw, hm, hs⟩ := Buf.writeAll_slice ob ho.wf ho.writable d.outputCount n
    (by rw [ho.cc]; exact hoc) (by rw [ho.fc]; exact hn) out
  rw [h5] at h3
  injection h3 with h3
  subst h3
  refine ⟨hoc, hic, out, st, h4, ?_, rfl⟩
  refine ho.of_sameShape hsh hw ?_
  intro c f hc hf
  change p'.sample? c f = _
  rw [hs]
  split_ifs with hh
  · rfl
  · exact ho.get c f hc hf

omit [Add S] in
theorem runNode_progress {ops : NodeOps S P C} {g : Graph (Dsp P) Connection} {i : Id} {d : Dsp P}
    (hd : g.getNode i = some d) {ob ib : Buf S} {x : Nat → Nat → S} (ho : Holds D ob silence)
    (hx : Holds D ib x) {n : Nat} {t : Int} (hn : n ≤ D.fr) (hoc : d.outputCount ≤ D.ch)
    (hic : d.inputCount ≤ D.ch) {out : Nat → Nat → S} {st : P}
    (hr : ops.run d.state ⟨n, D.sr, t, window d.inputCount n x, window d.outputCount n silence⟩ =
        .ok (out, st)) :
    ∃ r, runNode ops g i ob ib n t = .ok r := by
  obtain ⟨p', h5, _⟩ := Buf.writeAll_slice ob ho.wf ho.writable d.outputCount n
    (by rw [ho.cc]; exact hoc) (by rw [ho.fc]; exact hn) out
  unfold runNode
  rw [hd]
  have h1 : ob.sliceChannelsAndFrames n d.outputCount true =
      .ok (Buf.slice ob ⟨0, 0, d.outputCount, n⟩ true) :=
    (Buf.C32_slice_created_iff ob _ true).1 (by simp only; rw [ho.cc, ho.fc]; omega)
  have h2 : ib.sliceChannelsAndFrames n d.inputCount false =
      .ok (Buf.slice ib ⟨0, 0, d.inputCount, n⟩ false) :=
    (Buf.C32_slice_created_iff ib _ false).1 (by simp only; rw [hx.cc, hx.fc]; omega)
  simp only [h1, h2, bind, Except.bind]
  rw [processAudio_eq ops d t ho hx hn hoc hic, ok_bind hr]
  simp only [h5, bind, Except.bind]
  exact ⟨_, rfl⟩

end DspGraph
end Rawdio
