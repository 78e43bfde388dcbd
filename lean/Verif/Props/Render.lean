import Verif.Lemmas.RenderBlock
import Mathlib.Tactic.NormNum.Basic

/-!
# Properties of rendering a block (C12 to C17)

`mf`, `mc`, `sr` are the configured maximum frame count, maximum channel count and sample rate.
-/

namespace Rawdio
namespace DspGraph

open Graph

variable {S P C : Type}

/-! ## A concrete engine used by the examples and counterexamples -/

/-- A source of ones (`none`) or a probe that copies its input and remembers the first sample of its
second channel (`some`). -/
def probeRun : Option Int → NodeBlock Int → Res ((Nat → Nat → Int) × Option Int)
  | none, _ => .ok (fun _ _ => 1, none)
  | some _, b => .ok (fun c f => (b.input c f).getD 0, some ((b.input 1 0).getD 0))

/-- The behaviour of sources and probes. -/
def probeOps : NodeOps Int (Option Int) Unit := ⟨probeRun, fun s _ => .ok s⟩

/-- A stereo source (node 1) connected to a stereo probe (node 2) by `n` channels from channel 0 to
channel 0, with the probe connected to the system output. -/
def probeGraph (n : Nat) : Res (DspGraph Int (Option Int)) := do
  let G ← (new 4 2 48000 : DspGraph Int (Option Int)).addDsp ⟨1, 0, 2, none⟩
  let G ← G.addDsp ⟨2, 2, 2, some 0⟩
  let G ← G.addConnection 10 (Connection.new 1 2 n)
  return G.connectToOutput ⟨.output, 2⟩

/-- The patch of `probeGraph`. -/
def probePatch (n : Nat) : Patch Connection := ⟨[1, 2], [⟨10, 1, 2, Connection.new 1 2 n⟩]⟩

theorem probeGraph_spec (n : Nat) : ∃ G, probeGraph n = .ok G ∧
    Reachable probeOps 4 2 48000 G ∧ G.graph.Shows (probePatch n) ∧ G.inputEndpoint = none ∧
    G.outputEndpoint = some ⟨.output, 2⟩ ∧ G.graph.getNode 1 = some ⟨1, 0, 2, none⟩ ∧
    G.graph.getNode 2 = some ⟨2, 2, 2, some 0⟩ := by
  refine ⟨_, rfl, ?_, ?_, rfl, rfl, rfl, rfl⟩
  · refine .toOutput 2 (.connect 10 (Connection.new 1 2 n) (.add ⟨2, 2, 2, some 0⟩
      (.add ⟨1, 0, 2, none⟩ .new rfl) rfl) rfl rfl)
  · obtain ⟨p, hs, hr⟩ := execAll_rep (fun _ => .id)
      [.addNode 1 ⟨1, 0, 2, none⟩, .addNode 2 ⟨2, 2, 2, some 0⟩,
        .connect 10 1 2 (Connection.new 1 2 n)] 0
      (Graph.empty : Graph (Dsp (Option Int)) Connection) _ Patch.empty rep_empty
      (by simp [GraphCmd.newIds]) (by intro x hx; simp [Patch.empty] at hx) rfl
    have : p = probePatch n := by
      cases hs with
      | cons s1 hs => cases s1; cases hs with
      | cons s1 hs => cases s1; cases hs with
      | cons s1 hs => cases s1; cases hs; rfl
    rw [← this]
    exact hr.shows

theorem probePatch_valid (n : Nat) : (probePatch n).ValidOrder [1, 2] := by
  refine ⟨by decide, fun _ => Iff.rfl, ?_⟩
  intro c hc
  simp only [probePatch, List.mem_singleton] at hc
  subst hc
  exact ⟨[], [], [], rfl⟩

/-- A stereo block of two frames of sevens. -/
def sevens : Buf Int := .owned [7, 7, 7, 7] 2 2 48000

theorem sevens_block : ValidBlock sevens sevens :=
  ⟨rfl, rfl, trivial, by decide, by decide⟩

/-! ## C12 -/

/-- C12: whenever no process call is running, all buffers of the pool are free, of the configured
size and silent, and no buffer is held for a node. -/
theorem C12_buffers_conserved [Zero S] [Add S] (ops : NodeOps S P C) (mf mc sr : Nat) (hm : 0 < mf)
    (G : DspGraph S P) (hG : Reachable ops mf mc sr G) :
    G.pools.assigned = [] ∧ G.pools.free.length = 1024 ∧
    ∀ b ∈ G.pools.free, ∀ c f, b.sample? c f = if c < mc ∧ f < mf then some 0 else none := by
  obtain ⟨p, hp⟩ := reachable_inv hm hG
  obtain ⟨h1, h2⟩ := hp.free
  refine ⟨h2, by rw [h1, List.length_replicate]; rfl, ?_⟩
  intro b hb c f
  rw [h1] at hb
  rw [List.eq_of_mem_replicate hb, Buf.new_sample?]

example : ∃ G, Reachable probeOps 4 2 48000 G ∧ G.graph.getNode 2 = some ⟨2, 2, 2, some 0⟩ :=
  let ⟨G, _, h, _, _, _, _, h2⟩ := probeGraph_spec 2
  ⟨G, h, h2⟩

/-! ## C13 -/

/-- C13: a block of at most 1022 nodes is rendered without running out of buffers (and without any
other failure of the engine) whatever the connections, provided the patch can be ordered, everything
fits the configured number of channels and the nodes themselves do not fail. -/
theorem C13_enough_buffers [Zero S] [Add S] (ops : NodeOps S P C) (mf mc sr : Nat) (hm : 0 < mf)
    (G : DspGraph S P) (hG : Reachable ops mf mc sr G) (p : Patch Connection)
    (hp : G.graph.Shows p) (hac : p.Acyclic) (hnp : p.NoParallel) (hfit : G.Fits p mc)
    (hsize : p.nodes.length ≤ 1022) (hops : ∀ s b, ∃ r, ops.run s b = .ok r) (env : Env)
    (input output : Buf S) (hv : ValidBlock input output) (t : Int) :
    ∃ r, G.process ops env input output t = .ok r := by
  obtain ⟨q, hq⟩ := reachable_inv hm hG
  have hqs := hq.rep.shows
  refine process_progress hq hv.inWF hv.outWF hv.writable hv.nonempty hm hv.enough
    (TopologicalSort.acyclic_of_shows hp hqs hac) (TopologicalSort.noParallel_of_shows hp hqs hnp)
    ?_ ?_
  · have := shows_length hp hqs hq.rep.nodupP
    change q.nodes.length + 2 ≤ 1024
    omega
  · intro i hi
    have hip : i ∈ p.nodes := (hp.nodes i).mpr ((hqs.nodes i).mp hi)
    refine ⟨?_, ?_⟩
    · intro d hd
      exact ⟨(hfit.1 i d hd).2, (hfit.1 i d hd).1, fun x => hops _ _⟩
    · rw [at_of_shows hqs hp hi]
      exact inputFits_of_fits hfit i

theorem probeGraph_runs (n : Nat) (hn : n ≤ 2) (G : DspGraph Int (Option Int))
    (hG : probeGraph n = .ok G) (env : Env) (t : Int) :
    ∃ r, G.process probeOps env sevens sevens t = .ok r := by
  obtain ⟨G', h0, h1, h2, h3, h4, h5, h6⟩ := probeGraph_spec n
  rw [hG] at h0
  injection h0 with h0
  subst h0
  refine C13_enough_buffers probeOps 4 2 48000 (by decide) G h1 (probePatch n) h2
    (TopologicalSort.acyclic_of_valid (probePatch_valid n)) ?_ ⟨?_, ?_⟩ (by simp [probePatch]) ?_ env _ _
    sevens_block t
  · simp [Patch.NoParallel, probePatch]
  · intro i d hd
    have := (h2.nodes i).mpr ⟨d, hd⟩
    simp only [probePatch, List.mem_cons, List.not_mem_nil, or_false] at this
    rcases this with rfl | rfl
    · rw [h5] at hd; injection hd with hd; subst hd; exact ⟨by decide, by decide⟩
    · rw [h6] at hd; injection hd with hd; subst hd; exact ⟨by decide, by decide⟩
  · intro k hk
    simp only [probePatch, List.mem_singleton] at hk
    subst hk
    simpa [Connection.new] using hn
  · intro s b
    cases s <;> exact ⟨_, rfl⟩

/-- The hypotheses of C13 are met by `probeGraph`. -/
example : ∃ G, probeGraph 2 = .ok G ∧ ∃ r, G.process probeOps Env.plain sevens sevens 0 = .ok r :=
  let ⟨G, h, _⟩ := probeGraph_spec 2
  ⟨G, h, probeGraph_runs 2 (by decide) G h _ _⟩

/-- C13: a block of more than 1024 nodes is never rendered: the call fails, whatever the nodes do. -/
theorem C13_too_many_nodes [Zero S] [Add S] (ops : NodeOps S P C) (mf mc sr : Nat) (hm : 0 < mf)
    (G : DspGraph S P) (hG : Reachable ops mf mc sr G) (p : Patch Connection)
    (hp : G.graph.Shows p) (hnd : p.nodes.Nodup) (hsize : 1024 < p.nodes.length) (env : Env)
    (input output : Buf S) (hv : ValidBlock input output) (t : Int) :
    ∃ e, G.process ops env input output t = .error e := by
  obtain ⟨q, hq⟩ := reachable_inv hm hG
  cases h : G.process ops env input output t with
  | error e => exact ⟨e, rfl⟩
  | ok r =>
    obtain ⟨o', G'⟩ := r
    obtain ⟨sig, hd⟩ := process_ok hq hv.inWF hv.outWF hv.writable hv.nonempty hm hv.enough h
    have h1 := hd.few
    have h2 := shows_length hq.rep.shows hp hnd
    change q.nodes.length ≤ 1024 at h1
    omega

/-- Adding nodes `0 .. n-1` to a graph. -/
def manyNodes : Nat → Res (DspGraph Int (Option Int))
  | 0 => .ok (new 4 2 48000)
  | n + 1 => do
    let G ← manyNodes n
    G.addDsp ⟨n, 0, 1, none⟩

theorem manyNodes_spec (n : Nat) : ∃ G, manyNodes n = .ok G ∧ Reachable probeOps 4 2 48000 G ∧
    Rep G.graph (⟨List.range n, []⟩ : Patch Connection) := by
  induction n with
  | zero => exact ⟨_, rfl, .new, rep_empty⟩
  | succ n ih =>
    obtain ⟨G, h1, h2, h3⟩ := ih
    obtain ⟨g, e1, e2, _⟩ := rep_addNode h3 n (⟨n, 0, 1, none⟩ : Dsp (Option Int)) (by simp)
    have hadd : G.addDsp ⟨n, 0, 1, none⟩ = .ok { G with graph := g, needsSort := true } := by
      unfold addDsp
      exact ok_bind e1
    refine ⟨{ G with graph := g, needsSort := true }, ?_, .add _ h2 hadd, ?_⟩
    · rw [manyNodes, h1]; exact hadd
    · rw [List.range_succ]; exact e2

/-- There are graphs that meet the hypotheses of `C13_too_many_nodes`. -/
example : ∃ G, Reachable probeOps 4 2 48000 G ∧ ∃ p, G.graph.Shows p ∧ p.nodes.Nodup ∧
    1024 < p.nodes.length := by
  have key : ∀ n, 1024 < n → ∃ G, Reachable probeOps 4 2 48000 G ∧ ∃ p, G.graph.Shows p ∧
      p.nodes.Nodup ∧ 1024 < p.nodes.length := by
    intro n hn
    obtain ⟨G, _, h2, h3⟩ := manyNodes_spec n
    exact ⟨G, h2, _, h3.shows, List.nodup_range, by rw [List.length_range]; exact hn⟩
  exact key 1025 (by norm_num)

/-! ## C14 -/

/-- C14: every node is run exactly once per block on exactly the input `Patch.received`. -/
theorem C14_block_rendered [AddZeroClass S] (ops : NodeOps S P C) (mf mc sr : Nat) (hm : 0 < mf)
    (G G' : DspGraph S P) (hG : Reachable ops mf mc sr G) (p : Patch Connection)
    (hp : G.graph.Shows p) (env : Env) (input output o' : Buf S) (hv : ValidBlock input output)
    (t : Int) (h : G.process ops env input output t = .ok (o', G')) :
    ∃ sig, Rendered ops p G.graph.getNode (min output.frameCount mf) sr t
        (p.received (arrivesFromSystem (G.inputEndpoint.map Endpoint.dsp) input
          (min input.channelCount mc) (min output.frameCount mf))) sig G'.graph.getNode :=
  let ⟨sig, h, _⟩ := block_spec hm hG hp hv h
  ⟨sig, h⟩

/-- C14, partial: a node that is not connected to the system input receives exactly the sum of what
is connected to it.  Missing: a node whose only connection goes from channel 0 to channel 0 and has
fewer channels than both the source and the node (see `C14_inputs_are_sums_violated`). -/
theorem C14_inputs_are_sums_partial [AddZeroClass S] (ops : NodeOps S P C) (mf mc sr : Nat)
    (hm : 0 < mf) (G G' : DspGraph S P) (hG : Reachable ops mf mc sr G) (p : Patch Connection)
    (hp : G.graph.Shows p) (env : Env) (input output o' : Buf S) (hv : ValidBlock input output)
    (t : Int) (h : G.process ops env input output t = .ok (o', G'))
    (hsys : ∀ ep, G.inputEndpoint = some ep → ep.dsp ∉ p.nodes)
    (hwide : ∀ n ∈ p.nodes, ∀ k, p.at' n .incoming = [k] → k.data.Plain →
      ∀ d s, G.graph.getNode n = some d → G.graph.getNode k.src = some s →
        min d.inputCount s.outputCount ≤ k.data.channelCount) :
    ∃ sig, Rendered ops p G.graph.getNode (min output.frameCount mf) sr t p.sumInto sig
      G'.graph.getNode := by
  obtain ⟨sig, hr, _⟩ := block_spec hm hG hp hv h
  refine ⟨sig, ⟨?_, hr.gone⟩⟩
  intro n hn
  obtain ⟨d, out, st, r1, r2, r3, r4⟩ := hr.run n hn
  refine ⟨d, out, st, r1, ?_, r3, r4⟩
  rw [← r2]
  congr 2
  apply window_congr
  intro c f hc hf
  have hnosys : ∀ c f, arrivesFromSystem (G.inputEndpoint.map Endpoint.dsp) input
      (min input.channelCount mc) (min output.frameCount mf) n c f = 0 := by
    intro c f
    unfold arrivesFromSystem
    rw [if_neg]
    rintro ⟨he, _⟩
    cases hep : G.inputEndpoint with
    | none => rw [hep] at he; cases he
    | some ep =>
      rw [hep] at he
      injection he with he
      exact hsys ep hep (he ▸ hn)
  unfold Patch.received Patch.sumInto
  cases hks : p.at' n .incoming with
  | nil => simp only [Patch.arriving, hks, hnosys]; rfl
  | cons k ks =>
    simp only [hnosys, ite_self]
    split_ifs with hpl
    · obtain ⟨rfl, hpl⟩ := hpl
      have hk := (mem_at.mp (by rw [hks]; exact List.mem_cons_self .. : k ∈ p.at' n .incoming)).1
      obtain ⟨q, hq⟩ := reachable_inv hm hG
      obtain ⟨k', hk', _, hsrc, _⟩ := shows_conn hp hq.rep.shows hk
      have hsn : k.src ∈ p.nodes := by
        rw [hp.nodes, ← hq.rep.shows.nodes, ← hsrc]
        exact (hq.rep.ends k' hk').1
      obtain ⟨s, os, ss, s1, _, _, s4⟩ := hr.run k.src hsn
      have hw := hwide n hn k hks hpl d s r1 s1
      simp only [Patch.arriving, hks, List.filter_cons, List.filter_nil, Connection.Feeds, hpl.1,
        hpl.2, Nat.zero_le, Nat.zero_add, true_and, Nat.sub_zero, decide_eq_true_eq]
      split_ifs with hcc
      · simp [hpl.1, hpl.2]
      · rw [s4, if_neg (by omega)]; rfl
    · rfl

/-- `probeGraph 2` meets the hypotheses of `C14_inputs_are_sums_partial`. -/
example : ∃ G, Reachable probeOps 4 2 48000 G ∧ G.graph.Shows (probePatch 2) ∧
    (∃ r, G.process probeOps Env.plain sevens sevens 0 = .ok r) ∧
    (∀ ep, G.inputEndpoint = some ep → ep.dsp ∉ (probePatch 2).nodes) ∧
    (∀ n ∈ (probePatch 2).nodes, ∀ k, (probePatch 2).at' n .incoming = [k] → k.data.Plain →
      ∀ d s, G.graph.getNode n = some d → G.graph.getNode k.src = some s →
        min d.inputCount s.outputCount ≤ k.data.channelCount) := by
  obtain ⟨G, h0, h1, h2, h3, h4, h5, h6⟩ := probeGraph_spec 2
  refine ⟨G, h1, h2, probeGraph_runs 2 (by decide) G h0 _ _, ?_, ?_⟩
  · intro ep h; rw [h3] at h; cases h
  · intro n hn k hk _ d s hd hs
    simp only [probePatch, List.mem_cons, List.not_mem_nil, or_false] at hn
    rcases hn with rfl | rfl
    · simp [probePatch, Patch.at', Conn.near] at hk
    · simp only [probePatch, Patch.at', Conn.near] at hk
      injection hk with hk
      subst hk
      rw [h6] at hd
      injection hd with hd
      subst hd
      exact Nat.min_le_left ..

/-- The claim that the nodes of a block in which nothing is connected to the system input receive
exactly the sums of what is connected to them. -/
def InputsAreSums (S P C : Type) [AddZeroClass S] : Prop :=
  ∀ (ops : NodeOps S P C) (mf mc sr : Nat) (G G' : DspGraph S P) (p : Patch Connection) (env : Env)
    (input output o' : Buf S) (t : Int), 0 < mf → Reachable ops mf mc sr G → G.graph.Shows p →
    ValidBlock input output → G.inputEndpoint = none →
    G.process ops env input output t = .ok (o', G') →
    ∃ sig, Rendered ops p G.graph.getNode (min output.frameCount mf) sr t p.sumInto sig
      G'.graph.getNode

/-- C14 is violated: a single connection of one channel between stereo nodes passes both
channels. -/
theorem C14_inputs_are_sums_violated : ¬ InputsAreSums Int (Option Int) Unit := by
  intro hall
  obtain ⟨G, h0, h1, h2, h3, h4, h5, h6⟩ := probeGraph_spec 1
  obtain ⟨⟨o', G'⟩, hr⟩ := probeGraph_runs 1 (by decide) G h0 Env.plain 0
  obtain ⟨sig, a⟩ := C14_block_rendered probeOps 4 2 48000 (by decide) G G' h1 _ h2 Env.plain _ _ o'
    sevens_block 0 hr
  obtain ⟨sig', b⟩ := hall probeOps 4 2 48000 G G' _ Env.plain _ _ o' 0 (by decide) h1 h2
    sevens_block h3 hr
  have hn1 : (1 : Nat) ∈ (probePatch 1).nodes := by simp [probePatch]
  have hn2 : (2 : Nat) ∈ (probePatch 1).nodes := by simp [probePatch]
  obtain ⟨d, out, st, e1, e2, e3, e4⟩ := a.run 1 hn1
  rw [h5] at e1
  injection e1 with e1
  subst e1
  have hout : out = fun _ _ => 1 := by
    simp only [probeOps, probeRun] at e2
    injection e2 with e2
    exact (Prod.mk.inj e2).1.symm
  obtain ⟨d2, out2, st2, f1, f2, f3, f4⟩ := a.run 2 hn2
  rw [h6] at f1
  injection f1 with f1
  subst f1
  obtain ⟨d3, out3, st3, g1, g2, g3, g4⟩ := b.run 2 hn2
  rw [h6] at g1
  injection g1 with g1
  subst g1
  rw [f3] at g3
  injection g3 with g3
  have hst : st2 = st3 := congrArg Dsp.state g3
  have hf : st2 = some 1 := by
    simp only [probeOps, probeRun] at f2
    injection f2 with f2
    rw [← (Prod.mk.inj f2).2]
    have : window 2 (min sevens.frameCount 4) ((probePatch 1).received
        (arrivesFromSystem (G.inputEndpoint.map Endpoint.dsp) sevens (min sevens.channelCount 2)
          (min sevens.frameCount 4)) sig 2) 1 0 = some (sig 1 1 0) := rfl
    rw [this, e4, hout]
    rfl
  have hg : st3 = some 0 := by
    simp only [probeOps, probeRun] at g2
    injection g2 with g2
    rw [← (Prod.mk.inj g2).2]
    rfl
  rw [hf, hg] at hst
  exact absurd hst (by decide)

/-! ## C15 -/

/-- C15: two renderings of the same block, with any processing orders, hash map iteration orders and
buffer alignments, give the same output and the same nodes. -/
theorem C15_order_independent [Zero S] [Add S] (ops : NodeOps S P C) (mf mc sr : Nat) (hm : 0 < mf)
    (G₁ G₂ G₁' G₂' : DspGraph S P) (h₁ : Reachable ops mf mc sr G₁) (h₂ : Reachable ops mf mc sr G₂)
    (hgraph : G₁.graph = G₂.graph) (hin : G₁.inputEndpoint = G₂.inputEndpoint)
    (hout : G₁.outputEndpoint = G₂.outputEndpoint) (env₁ env₂ : Env) (input output o₁ o₂ : Buf S)
    (hv : ValidBlock input output) (t : Int)
    (hp₁ : G₁.process ops env₁ input output t = .ok (o₁, G₁'))
    (hp₂ : G₂.process ops env₂ input output t = .ok (o₂, G₂')) :
    (∀ c f, o₁.sample? c f = o₂.sample? c f) ∧
    ∀ i, G₁'.graph.getNode i = G₂'.graph.getNode i := by
  obtain ⟨p, hp⟩ := reachable_inv hm h₁
  obtain ⟨q, hq⟩ := reachable_inv hm h₂
  obtain ⟨sig, hd⟩ := process_ok hp hv.inWF hv.outWF hv.writable hv.nonempty hm hv.enough hp₁
  obtain ⟨sig', hd'⟩ := process_ok hq hv.inWF hv.outWF hv.writable hv.nonempty hm hv.enough hp₂
  have hps := hp.rep.shows
  have hqs : G₁.graph.Shows q := by rw [hgraph]; exact hq.rep.shows
  have hran' := ran_of_shows hps hqs hd'.ran
  rw [← hgraph, ← hin] at hran'
  have hu := ran_unique (hd.inv.sorted hd.clean).1 hd.ran hran'
  have hmem : ∀ i, i ∈ p.nodes ↔ i ∈ q.nodes := fun i => by rw [hps.nodes, hqs.nodes]
  refine ⟨?_, ?_⟩
  · intro c f
    rw [hd.out, hd'.out, hout]
    congr 1
    cases G₂.outputEndpoint with
    | none => rfl
    | some ep =>
      simp only [Option.bind_some]
      by_cases h : ep.dsp ∈ p.nodes
      · rw [if_pos h, if_pos ((hmem _).mp h), (hu _ h).1]
      · rw [if_neg h, if_neg (fun h' => h ((hmem _).mpr h'))]
  · intro i
    by_cases h : i ∈ p.nodes
    · exact (hu i h).2
    · have a1 : G₁'.graph.getNode i = none := by
        cases hg : G₁'.graph.getNode i with
        | none => rfl
        | some d => exact absurd ((hd.inv.rep.shows.nodes i).mpr ⟨d, hg⟩) h
      have a2 : G₂'.graph.getNode i = none := by
        cases hg : G₂'.graph.getNode i with
        | none => rfl
        | some d =>
          exact absurd ((hmem i).mpr ((hd'.inv.rep.shows.nodes i).mpr ⟨d, hg⟩)) h
      rw [a1, a2]

/-- C15: if a block of at most 1022 nodes is rendered with one processing order, it is rendered with
every other. -/
theorem C15_order_independent_success [Zero S] [Add S] (ops : NodeOps S P C) (mf mc sr : Nat)
    (hm : 0 < mf) (G₁ G₂ G₁' : DspGraph S P) (h₁ : Reachable ops mf mc sr G₁)
    (h₂ : Reachable ops mf mc sr G₂) (hgraph : G₁.graph = G₂.graph)
    (hin : G₁.inputEndpoint = G₂.inputEndpoint) (p : Patch Connection) (hp : G₁.graph.Shows p)
    (hsize : p.nodes.length ≤ 1022) (env₁ env₂ : Env)
    (input output o₁ : Buf S) (hv : ValidBlock input output) (t : Int)
    (hp₁ : G₁.process ops env₁ input output t = .ok (o₁, G₁')) :
    ∃ r, G₂.process ops env₂ input output t = .ok r := by
  obtain ⟨p', hp'⟩ := reachable_inv hm h₁
  obtain ⟨q, hq⟩ := reachable_inv hm h₂
  obtain ⟨sig, hd⟩ := process_ok hp' hv.inWF hv.outWF hv.writable hv.nonempty hm hv.enough hp₁
  have hps := hp'.rep.shows
  have hqs : G₁.graph.Shows q := by rw [hgraph]; exact hq.rep.shows
  have hran := ran_of_shows hqs hps hd.ran
  rw [hgraph, hin] at hran
  refine process_of_fold hq hv.inWF hv.outWF hv.writable hv.nonempty hm hv.enough
    (TopologicalSort.acyclic_of_shows hps hqs
      (TopologicalSort.acyclic_of_valid (hd.inv.sorted hd.clean).1))
    (TopologicalSort.noParallel_of_shows hps hqs (hd.inv.sorted hd.clean).2) ?_
  intro order pools hvo hlen hst
  have h0 : 0 < output.frameCount := hv.nonempty
  refine fold_progress_of_ran (by change 0 < min output.frameCount mf; omega)
    (Nat.min_le_right ..) hran order [] _ _ _
    (by simpa using hvo) ?_ hst (by intro i hi; cases hi)
  have := shows_length hp hqs hq.rep.nodupP
  rw [List.nil_append, hlen]
  change q.nodes.length + 2 ≤ 1024
  omega

/-- `probeGraph` rendered twice meets the hypotheses of C15. -/
example : ∃ G, Reachable probeOps 4 2 48000 G ∧ ∃ o G',
    G.process probeOps Env.plain sevens sevens 0 = .ok (o, G') := by
  obtain ⟨G, h0, h1, _⟩ := probeGraph_spec 2
  obtain ⟨⟨o, G'⟩, h⟩ := probeGraph_runs 2 (by decide) G h0 Env.plain 0
  exact ⟨G, h1, o, G', h⟩

/-! ## C16 -/

/-- C16: the output block shows the signal of the node connected to the system output (which is
silent outside the channels that the node produces), up to the configured number of channels, and is
left as it was elsewhere and if there is no such node.  (The engine clears the output buffer before
the first block, see `C01_stopped_silent` and `C16_engine_output`.) -/
theorem C16_output [AddZeroClass S] (ops : NodeOps S P C) (mf mc sr : Nat) (hm : 0 < mf)
    (G G' : DspGraph S P) (hG : Reachable ops mf mc sr G) (p : Patch Connection)
    (hp : G.graph.Shows p) (env : Env) (input output o' : Buf S) (hv : ValidBlock input output)
    (t : Int) (h : G.process ops env input output t = .ok (o', G')) :
    ∃ sig, Rendered ops p G.graph.getNode (min output.frameCount mf) sr t
        (p.received (arrivesFromSystem (G.inputEndpoint.map Endpoint.dsp) input
          (min input.channelCount mc) (min output.frameCount mf))) sig G'.graph.getNode ∧
      o'.channelCount = output.channelCount ∧ o'.frameCount = output.frameCount ∧
      (∀ ep c f, G.outputEndpoint = some ep → ep.dsp ∈ p.nodes →
        c < min output.channelCount mc → f < min output.frameCount mf →
        o'.sample? c f = some (sig ep.dsp c f)) ∧
      ∀ c f, (min output.channelCount mc ≤ c ∨ min output.frameCount mf ≤ f ∨
        ∀ ep, G.outputEndpoint = some ep → ep.dsp ∉ p.nodes) →
        o'.sample? c f = output.sample? c f := by
  obtain ⟨sig, h1, h2, h3⟩ := block_spec hm hG hp hv h
  refine ⟨sig, h1, h3.channelCount.symm, h3.frameCount.symm, ?_, ?_⟩
  · intro ep c f he hn hc hf
    rw [h2, he, Option.bind_some, if_pos hn, outputSample, if_pos ⟨hc, hf⟩]
  · intro c f hcase
    rw [h2]
    unfold outputSample
    split
    · rename_i y hy
      rw [if_neg]
      rintro ⟨hc, hf⟩
      rcases hcase with h | h | h
      · omega
      · omega
      · cases he : G.outputEndpoint with
        | none => rw [he] at hy; cases hy
        | some ep => rw [he, Option.bind_some, if_neg (h ep he)] at hy; cases hy
    · rfl

/-- `probeGraph` meets the hypotheses of C16 with a node connected to the output. -/
example : ∃ G, Reachable probeOps 4 2 48000 G ∧ G.graph.Shows (probePatch 2) ∧
    G.outputEndpoint = some ⟨.output, 2⟩ ∧ (2 : Nat) ∈ (probePatch 2).nodes ∧
    ∃ r, G.process probeOps Env.plain sevens sevens 0 = .ok r := by
  obtain ⟨G, h0, h1, h2, h3, h4, _⟩ := probeGraph_spec 2
  exact ⟨G, h1, h2, h4, by simp [probePatch], probeGraph_runs 2 (by decide) G h0 _ _⟩

/-! ## C17 -/

/-- C17, partial: a node connected to the system input that has no incoming connection is run on the
channels of the input block, and on silence beyond them.  Missing: nodes with incoming connections
(see `C17_system_input_violated`; `C14_block_rendered` says what they receive). -/
theorem C17_system_input_partial [AddZeroClass S] (ops : NodeOps S P C) (mf mc sr : Nat)
    (hm : 0 < mf) (G G' : DspGraph S P) (hG : Reachable ops mf mc sr G) (p : Patch Connection)
    (hp : G.graph.Shows p) (env : Env) (input output o' : Buf S) (hv : ValidBlock input output)
    (t : Int) (h : G.process ops env input output t = .ok (o', G')) (n : Id)
    (hn : G.inputEndpoint = some ⟨.input, n⟩) (hd : n ∈ p.nodes) (hno : p.at' n .incoming = []) :
    ∃ d x out st, G.graph.getNode n = some d ∧
      ops.run d.state ⟨min output.frameCount mf, sr, t,
        window d.inputCount (min output.frameCount mf) x,
        window d.outputCount (min output.frameCount mf) silence⟩ = .ok (out, st) ∧
      G'.graph.getNode n = some { d with state := st } ∧
      (∀ c f, c < min input.channelCount mc → f < min output.frameCount mf →
        input.sample? c f = some (x c f)) ∧
      ∀ c f, min input.channelCount mc ≤ c → x c f = 0 := by
  obtain ⟨sig, hr, _⟩ := block_spec hm hG hp hv h
  obtain ⟨d, out, st, r1, r2, r3, _⟩ := hr.run n hd
  refine ⟨d, _, out, st, r1, r2, r3, ?_, ?_⟩
  · intro c f hc hf
    have h1 := hv.enough
    obtain ⟨v, hv'⟩ := Buf.sample?_isSome input hv.inWF c f (by omega) (by omega)
    unfold Patch.received
    rw [hno]
    simp only [arrivesFromSystem, hn, Option.map_some]
    rw [if_pos ⟨trivial, hc, hf⟩, hv']
    rfl
  · intro c f hc
    unfold Patch.received
    rw [hno]
    simp only [arrivesFromSystem]
    rw [if_neg (by omega)]

/-- A probe alone connected to the system input. -/
def micGraph : Res (DspGraph Int (Option Int)) := do
  let G ← (new 4 2 48000 : DspGraph Int (Option Int)).addDsp ⟨2, 2, 2, some 0⟩
  return G.connectToInput ⟨.input, 2⟩

/-- It meets the hypotheses of `C17_system_input_partial`. -/
example : ∃ G, Reachable probeOps 4 2 48000 G ∧ G.inputEndpoint = some ⟨.input, 2⟩ ∧
    (∃ p, G.graph.Shows p ∧ (2 : Nat) ∈ p.nodes ∧ p.at' 2 .incoming = []) ∧
    ∃ r, G.process probeOps Env.plain sevens sevens 0 = .ok r := by
  obtain ⟨G, hG⟩ : ∃ G, micGraph = .ok G := ⟨_, rfl⟩
  have hreach : Reachable probeOps 4 2 48000 G := by
    injection hG with hG
    subst hG
    exact .toInput 2 (.add ⟨2, 2, 2, some 0⟩ .new rfl)
  have hshow : G.graph.Shows (⟨[2], []⟩ : Patch Connection) := by
    injection hG with hG
    subst hG
    obtain ⟨g, e1, e2, _⟩ := rep_addNode
      (rep_empty (N := Dsp (Option Int)) (E := Connection)) 2 ⟨2, 2, 2, some 0⟩
      (by simp [Patch.empty])
    injection e1 with e1
    subst e1
    exact e2.shows
  refine ⟨G, hreach, ?_, ⟨_, hshow, by simp, rfl⟩, ?_⟩
  · injection hG with hG
    subst hG
    rfl
  · refine C13_enough_buffers probeOps 4 2 48000 (by decide) G hreach _ hshow ?_ ?_ ⟨?_, ?_⟩
      (by decide) ?_ Env.plain _ _ sevens_block 0
    · refine TopologicalSort.acyclic_of_valid (order := [2]) ⟨by decide, fun _ => Iff.rfl, ?_⟩
      intro c hc; cases hc
    · simp [Patch.NoParallel]
    · intro i d hd
      have := (hshow.nodes i).mpr ⟨d, hd⟩
      simp only [List.mem_singleton] at this
      subst this
      injection hG with hG
      subst hG
      injection hd with hd
      subst hd
      exact ⟨by decide, by decide⟩
    · intro k hk; cases hk
    · intro s b
      cases s <;> exact ⟨_, rfl⟩

/-- The claim that the node connected to the system input is run on an input that contains the
channels of the input block (plus whatever else is connected to it). -/
def SystemInputArrives (S P C : Type) [AddZeroClass S] : Prop :=
  ∀ (ops : NodeOps S P C) (mf mc sr : Nat) (G G' : DspGraph S P) (p : Patch Connection) (env : Env)
    (input output o' : Buf S) (t : Int) (n : Id), 0 < mf → Reachable ops mf mc sr G →
    G.graph.Shows p → ValidBlock input output → G.inputEndpoint = some ⟨.input, n⟩ →
    G.process ops env input output t = .ok (o', G') →
    ∃ sig, Rendered ops p G.graph.getNode (min output.frameCount mf) sr t
      (fun sig m c f => arrivesFromSystem (some n) input (min input.channelCount mc)
        (min output.frameCount mf) m c f + p.sumInto sig m c f) sig G'.graph.getNode

/-- C17 is violated: a source connected to the node makes the system input disappear. -/
theorem C17_system_input_violated : ¬ SystemInputArrives Int (Option Int) Unit := by
  intro hall
  obtain ⟨G0, h0, h1, h2, h3, h4, h5, h6⟩ := probeGraph_spec 2
  have hr1 : Reachable probeOps 4 2 48000 (G0.connectToInput ⟨.input, 2⟩) := .toInput 2 h1
  obtain ⟨⟨o', G'⟩, hr⟩ : ∃ r, (G0.connectToInput ⟨.input, 2⟩).process probeOps Env.plain sevens
      sevens 0 = .ok r := by
    refine C13_enough_buffers probeOps 4 2 48000 (by decide) _ hr1 (probePatch 2) h2
      (TopologicalSort.acyclic_of_valid (probePatch_valid 2)) ?_ ⟨?_, ?_⟩ (by decide) ?_ Env.plain
      _ _ sevens_block 0
    · simp [Patch.NoParallel, probePatch]
    · intro i d hd
      have := (h2.nodes i).mpr ⟨d, hd⟩
      simp only [probePatch, List.mem_cons, List.not_mem_nil, or_false] at this
      change G0.graph.getNode i = some d at hd
      rcases this with rfl | rfl
      · rw [h5] at hd; injection hd with hd; subst hd; exact ⟨by decide, by decide⟩
      · rw [h6] at hd; injection hd with hd; subst hd; exact ⟨by decide, by decide⟩
    · intro k hk
      simp only [probePatch, List.mem_singleton] at hk
      subst hk
      simp [Connection.new]
    · intro s b
      cases s <;> exact ⟨_, rfl⟩
  obtain ⟨sig, a⟩ := C14_block_rendered probeOps 4 2 48000 (by decide) _ G' hr1 _ h2 Env.plain _ _ o'
    sevens_block 0 hr
  obtain ⟨sig', b⟩ := hall probeOps 4 2 48000 _ G' _ Env.plain _ _ o' 0 2 (by decide) hr1 h2
    sevens_block rfl hr
  have hn1 : (1 : Nat) ∈ (probePatch 2).nodes := by simp [probePatch]
  have hn2 : (2 : Nat) ∈ (probePatch 2).nodes := by simp [probePatch]
  have one : ∀ {f : Signals Int → Id → Nat → Nat → Int} {sg : Signals Int},
      Rendered probeOps (probePatch 2) (G0.connectToInput ⟨.input, 2⟩).graph.getNode
        (min sevens.frameCount 4) 48000 0 f sg G'.graph.getNode → sg 1 1 0 = 1 := by
    intro f sg hh
    obtain ⟨d, out, st, e1, e2, e3, e4⟩ := hh.run 1 hn1
    change G0.graph.getNode 1 = some d at e1
    rw [h5] at e1
    injection e1 with e1
    subst e1
    simp only [probeOps, probeRun] at e2
    injection e2 with e2
    rw [e4, ← (Prod.mk.inj e2).1]
    rfl
  obtain ⟨d2, out2, st2, f1, f2, f3, f4⟩ := a.run 2 hn2
  change G0.graph.getNode 2 = some d2 at f1
  rw [h6] at f1
  injection f1 with f1
  subst f1
  obtain ⟨d3, out3, st3, g1, g2, g3, g4⟩ := b.run 2 hn2
  change G0.graph.getNode 2 = some d3 at g1
  rw [h6] at g1
  injection g1 with g1
  subst g1
  rw [f3] at g3
  injection g3 with g3
  have hst : st2 = st3 := congrArg Dsp.state g3
  have hf : st2 = some 1 := by
    simp only [probeOps, probeRun] at f2
    injection f2 with f2
    rw [← (Prod.mk.inj f2).2]
    change some (sig 1 1 0) = _
    rw [one a]
  have hg : st3 = some 8 := by
    simp only [probeOps, probeRun] at g2
    injection g2 with g2
    rw [← (Prod.mk.inj g2).2]
    change some (7 + (0 + sig' 1 1 0)) = _
    rw [one b]
    rfl
  rw [hf, hg] at hst
  exact absurd hst (by decide)

end DspGraph
end Rawdio
