import Verif.Props.Render
import Verif.Lemmas.SampleFloat

/-!
# Properties of mixing `f32` samples (C108)
-/

namespace Rawdio
namespace DspGraph

open Graph

variable {P C : Type}

/-- C108: in a block rendered with `f32` samples every node that is not connected to the system input receives, on every
channel, what is connected to it, up to the rounding: with `k` connections, at most a million, the input is within
`k (2^-23 A + 2^-149)` of the exact sum, where `A` is the sum of the sizes of the samples.  As in
`C14_inputs_are_sums_partial`, a single connection from channel 0 to channel 0 has to carry all channels. -/
theorem C108_mix (ops : NodeOps Sample32 P C) (mf mc sr : Nat) (hm : 0 < mf) (G G' : DspGraph Sample32 P)
    (hG : Reachable ops mf mc sr G) (p : Patch Connection) (hp : G.graph.Shows p) (env : Env)
    (input output o' : Buf Sample32) (hv : ValidBlock input output) (t : Int)
    (h : G.process ops env input output t = .ok (o', G'))
    (hsys : ∀ ep, G.inputEndpoint = some ep → ep.dsp ∉ p.nodes)
    (hwide : ∀ n ∈ p.nodes, ∀ k, p.at' n .incoming = [k] → k.data.Plain →
      ∀ d s, G.graph.getNode n = some d → G.graph.getNode k.src = some s →
        min d.inputCount s.outputCount ≤ k.data.channelCount)
    (hmany : ∀ n ∈ p.nodes, (p.at' n .incoming).length ≤ 2 ^ 20) :
    ∃ sig input, Rendered ops p G.graph.getNode (min output.frameCount mf) sr t (fun _ => input) sig
        G'.graph.getNode ∧
      ∀ n ∈ p.nodes, ∀ c f, |(input n c f).1 - exactMix (p.arriving sig n c f)| ≤
        (p.arriving sig n c f).length * (mixLevel (p.arriving sig n c f) * (1 / 2 ^ 23) + 1 / 2 ^ 149) := by
  obtain ⟨sig, hr⟩ := C14_inputs_are_sums_partial ops mf mc sr hm G G' hG p hp env input output o' hv t h hsys hwide
  refine ⟨sig, p.sumInto sig, ⟨hr.run, hr.gone⟩, ?_⟩
  intro n hn c f
  refine Sample32.mix_near _ (le_trans ?_ (hmany n hn))
  unfold Patch.arriving
  rw [List.length_map]
  exact List.length_filter_le ..

/-- C108: a single signal arrives unchanged, a mix of two is rounded once, and signals that cancel leave silence. -/
theorem C108_two (p : Patch Connection) (sig : Signals Sample32) (n : Id) (c f : Nat) :
    (∀ a, p.arriving sig n c f = [a] → p.sumInto sig n c f = a) ∧
    ∀ a b, p.arriving sig n c f = [a, b] → (p.sumInto sig n c f).1 = Float32.round (a.1 + b.1) ∧
      (a.1 + b.1 = 0 → p.sumInto sig n c f = 0) := by
  unfold Patch.sumInto
  refine ⟨fun a h => by rw [h]; simp, fun a b h => ?_⟩
  have e : [a, b].foldl (· + ·) 0 = a + b := by simp
  rw [h, e]
  exact ⟨rfl, fun h0 => Subtype.ext (by rw [Sample32.add_val, h0, Float32.round_zero]; rfl)⟩

/-- C108, partial: making the same connections in another order changes what a node receives by no more than the
rounding, and not at all if there are at most two.  Missing: that it does not change it if there are more (see
`C108_order_violated`). -/
theorem C108_order_partial (p q : Patch Connection) (hpq : p.conns.Perm q.conns) (sig : Signals Sample32) (n : Id)
    (c f : Nat) (hmany : (p.arriving sig n c f).length ≤ 2 ^ 20) :
    |(p.sumInto sig n c f).1 - (q.sumInto sig n c f).1| ≤ 2 * ((p.arriving sig n c f).length *
      (mixLevel (p.arriving sig n c f) * (1 / 2 ^ 23) + 1 / 2 ^ 149)) ∧
    ((p.arriving sig n c f).length ≤ 2 → p.sumInto sig n c f = q.sumInto sig n c f) := by
  have hperm : (p.arriving sig n c f).Perm (q.arriving sig n c f) :=
    ((hpq.filter _).filter _).map _
  unfold Patch.sumInto
  generalize p.arriving sig n c f = l at *
  generalize q.arriving sig n c f = l' at *
  refine ⟨?_, ?_⟩
  · have h1 := Sample32.mix_near l hmany
    have h2 := Sample32.mix_near l' (hperm.length_eq ▸ hmany)
    have e1 : exactMix l' = exactMix l := ((hperm.map _).sum_eq).symm
    have e2 : mixLevel l' = mixLevel l := ((hperm.map _).sum_eq).symm
    rw [e1, e2, ← hperm.length_eq, abs_sub_comm] at h2
    have := abs_add_le ((l.foldl (· + ·) 0).1 - exactMix l) (exactMix l - (l'.foldl (· + ·) 0).1)
    rw [sub_add_sub_cancel] at this
    linarith
  · exact Sample32.mix_pair hperm

/-! ## The order matters -/

/-- Sources of a constant (`some`) and a node that copies its input (`none`). -/
def mixRun : Option Sample32 → NodeBlock Sample32 → Res ((Nat → Nat → Sample32) × Option Sample32)
  | some v, _ => .ok (fun _ _ => v, some v)
  | none, b => .ok (fun c f => (b.input c f).getD 0, none)

/-- The behaviour of sources and copies. -/
def mixOps : NodeOps Sample32 (Option Sample32) Unit := ⟨mixRun, fun s _ => .ok s⟩

/-- Three sources, nodes 1 to 3, connected to node 4, which is heard, in the order `a`, `b`, `c`.  The connection of
source `i` is called `10 + i`. -/
def mixGraph (x y : Sample32) (a b c : Id) : Res (DspGraph Sample32 (Option Sample32)) := do
  let G ← (new 4 1 48000 : DspGraph Sample32 (Option Sample32)).addDsp ⟨1, 0, 1, some x⟩
  let G ← G.addDsp ⟨2, 0, 1, some y⟩
  let G ← G.addDsp ⟨3, 0, 1, some y⟩
  let G ← G.addDsp ⟨4, 1, 1, none⟩
  let G ← G.addConnection (10 + a) (Connection.new a 4 1)
  let G ← G.addConnection (10 + b) (Connection.new b 4 1)
  let G ← G.addConnection (10 + c) (Connection.new c 4 1)
  return G.connectToOutput ⟨.output, 4⟩

/-- The connection of source `a`. -/
def mixConn (a : Id) : Conn Connection := ⟨10 + a, a, 4, Connection.new a 4 1⟩

/-- The patch of `mixGraph`. -/
def mixPatch (a b c : Id) : Patch Connection := ⟨[1, 2, 3, 4], [mixConn a, mixConn b, mixConn c]⟩

/-- A mono block of one silent frame. -/
def oneFrame : Buf Sample32 := .owned [0] 1 1 48000

theorem oneFrame_block : ValidBlock oneFrame oneFrame :=
  ⟨rfl, rfl, trivial, by decide, by decide⟩

/-- The two orders that are compared. -/
def MixOrder (a b c : Id) : Prop := (a, b, c) = (1, 2, 3) ∨ (a, b, c) = (2, 3, 1)

/-- An engine that is being built: it is reachable, shows a patch, and nothing is connected to its input. -/
def Built (G : DspGraph Sample32 (Option Sample32)) (p : Patch Connection) (node : Id → Option (Dsp (Option Sample32))) :
    Prop :=
  Reachable mixOps 4 1 48000 G ∧ Rep G.graph p ∧ G.inputEndpoint = none ∧ ∀ i, G.graph.getNode i = node i

theorem built_add {G : DspGraph Sample32 (Option Sample32)} {p : Patch Connection}
    {node : Id → Option (Dsp (Option Sample32))} (h : Built G p node) (d : Dsp (Option Sample32)) (hd : d.id ∉ p.nodes) :
    ∃ G', G.addDsp d = .ok G' ∧
      Built G' ⟨p.nodes ++ [d.id], p.conns⟩ (fun j => if j = d.id then some d else node j) := by
  obtain ⟨h1, h2, h3, h4⟩ := h
  obtain ⟨g, e1, e2, e3⟩ := rep_addNode h2 d.id d hd
  have hadd : G.addDsp d = .ok { G with graph := g, needsSort := true } := by
    unfold addDsp
    exact ok_bind e1
  exact ⟨_, hadd, .add _ h1 hadd, e2, h3, fun i => by simpa only [h4] using e3 i⟩

theorem built_connect {G : DspGraph Sample32 (Option Sample32)} {p : Patch Connection}
    {node : Id → Option (Dsp (Option Sample32))} (h : Built G p node) (a : Id) (ha : a ∈ p.nodes) (h4 : 4 ∈ p.nodes)
    (hk : ∀ c ∈ p.conns, c.id ≠ 10 + a) :
    ∃ G', G.addConnection (10 + a) (Connection.new a 4 1) = .ok G' ∧
      Built G' ⟨p.nodes, p.conns ++ [mixConn a]⟩ node := by
  obtain ⟨h1, h2, h3, h5⟩ := h
  obtain ⟨g, e1, e2, e3⟩ := rep_addEdge h2 (10 + a) a 4 (Connection.new a 4 1) ha h4 hk
  have hadd : G.addConnection (10 + a) (Connection.new a 4 1) = .ok { G with graph := g, needsSort := true } := by
    unfold addConnection
    exact ok_bind e1
  refine ⟨_, hadd, .connect _ _ h1 ?_ hadd, e2, h3, fun i => (e3 i).trans (h5 i)⟩
  cases hg : G.graph.getEdge (10 + a) with
  | none => rfl
  | some e =>
    have hs : (G.graph.edges.get? (10 + a)).isSome := by
      cases he : G.graph.edges.get? (10 + a) with
      | some _ => rfl
      | none => simp [Graph.getEdge, he] at hg
    obtain ⟨c, hc, hci⟩ := h2.edgeNone _ hs
    exact absurd hci (hk c hc)

theorem mixGraph_spec (x y : Sample32) (a b c : Id) (ho : MixOrder a b c) : ∃ G, mixGraph x y a b c = .ok G ∧
    Reachable mixOps 4 1 48000 G ∧ G.graph.Shows (mixPatch a b c) ∧ G.inputEndpoint = none ∧
    G.outputEndpoint = some ⟨.output, 4⟩ ∧ G.graph.getNode 1 = some ⟨1, 0, 1, some x⟩ ∧
    G.graph.getNode 2 = some ⟨2, 0, 1, some y⟩ ∧ G.graph.getNode 3 = some ⟨3, 0, 1, some y⟩ ∧
    G.graph.getNode 4 = some ⟨4, 1, 1, none⟩ := by
  have hab : (a = 1 ∨ a = 2) ∧ (b = 2 ∨ b = 3) ∧ (c = 3 ∨ c = 1) ∧ a ≠ b ∧ a ≠ c ∧ b ≠ c := by
    rcases ho with h | h <;> cases h <;> decide
  obtain ⟨ha, hb, hc, h12, h13, h23⟩ := hab
  have h0 : Built (new 4 1 48000) ⟨[], []⟩ (fun _ => none) := ⟨.new, rep_empty, rfl, fun _ => rfl⟩
  obtain ⟨G1, e1, g1⟩ := built_add h0 ⟨1, 0, 1, some x⟩ (by simp)
  obtain ⟨G2, e2, g2⟩ := built_add g1 ⟨2, 0, 1, some y⟩ (by simp)
  obtain ⟨G3, e3, g3⟩ := built_add g2 ⟨3, 0, 1, some y⟩ (by simp)
  obtain ⟨G4, e4, g4⟩ := built_add g3 ⟨4, 1, 1, none⟩ (by simp)
  obtain ⟨G5, e5, g5⟩ := built_connect g4 a (by rcases ha with rfl | rfl <;> simp) (by simp) (by simp)
  obtain ⟨G6, e6, g6⟩ := built_connect g5 b (by rcases hb with rfl | rfl <;> simp) (by simp)
    (by simp [mixConn, h12])
  obtain ⟨G7, e7, g7⟩ := built_connect g6 c (by rcases hc with rfl | rfl <;> simp) (by simp)
    (by simp [mixConn, h13, h23])
  obtain ⟨r1, r2, r3, r4⟩ := g7
  refine ⟨G7.connectToOutput ⟨.output, 4⟩, ?_, .toOutput 4 r1, r2.shows, r3, rfl, ?_, ?_, ?_, ?_⟩
  · unfold mixGraph
    rw [e1, ok_bind rfl, e2, ok_bind rfl, e3, ok_bind rfl, e4, ok_bind rfl, e5, ok_bind rfl, e6, ok_bind rfl, e7]
    rfl
  all_goals
    refine (r4 _).trans ?_
    simp

theorem mixPatch_valid (a b c : Id) (ho : MixOrder a b c) : (mixPatch a b c).ValidOrder [1, 2, 3, 4] := by
  have h1 : ∃ u v w, [1, 2, 3, 4] = u ++ 1 :: (v ++ 4 :: w) := ⟨[], [2, 3], [], rfl⟩
  have h2 : ∃ u v w, [1, 2, 3, 4] = u ++ 2 :: (v ++ 4 :: w) := ⟨[1], [3], [], rfl⟩
  have h3 : ∃ u v w, [1, 2, 3, 4] = u ++ 3 :: (v ++ 4 :: w) := ⟨[1, 2], [], [], rfl⟩
  refine ⟨by decide, fun _ => Iff.rfl, ?_⟩
  intro k hk
  rcases ho with h | h <;> cases h <;>
    simp only [mixPatch, List.mem_cons, List.not_mem_nil, or_false] at hk <;> rcases hk with rfl | rfl | rfl <;>
    assumption

/-- What is heard of `mixGraph`: the sources, added in the order in which they were connected. -/
theorem mixGraph_heard (x y : Sample32) (a b c : Id) (ho : MixOrder a b c) :
    ∃ G o G', mixGraph x y a b c = .ok G ∧ G.process mixOps Env.plain oneFrame oneFrame 0 = .ok (o, G') ∧
      o.sample? 0 0 = some (if a = 1 then x + y + y else y + y + x) := by
  obtain ⟨G, h0, h1, h2, h3, h4, n1, n2, n3, n4⟩ := mixGraph_spec x y a b c ho
  obtain ⟨⟨o, G'⟩, hr⟩ : ∃ r, G.process mixOps Env.plain oneFrame oneFrame 0 = .ok r := by
    refine C13_enough_buffers mixOps 4 1 48000 (by decide) G h1 _ h2
      (TopologicalSort.acyclic_of_valid (mixPatch_valid a b c ho)) ?_ ⟨?_, ?_⟩ (by simp [mixPatch]) ?_ _ _ _
      oneFrame_block 0
    · rcases ho with h | h <;> cases h <;> simp [Patch.NoParallel, mixPatch, mixConn]
    · intro i d hd
      have := (h2.nodes i).mpr ⟨d, hd⟩
      simp only [mixPatch, List.mem_cons, List.not_mem_nil, or_false] at this
      rcases this with rfl | rfl | rfl | rfl
      · rw [n1] at hd; injection hd with hd; subst hd; simp
      · rw [n2] at hd; injection hd with hd; subst hd; simp
      · rw [n3] at hd; injection hd with hd; subst hd; simp
      · rw [n4] at hd; injection hd with hd; subst hd; simp
    · intro k hk
      simp only [mixPatch, List.mem_cons, List.not_mem_nil, or_false] at hk
      rcases hk with rfl | rfl | rfl <;> simp [mixConn, Connection.new]
    · intro s b
      cases s <;> exact ⟨_, rfl⟩
  refine ⟨G, o, G', h0, hr, ?_⟩
  obtain ⟨sig, hs, _, _, hout, _⟩ := C16_output mixOps 4 1 48000 (by decide) G G' h1 _ h2 _ _ _ o oneFrame_block 0 hr
  rw [hout ⟨.output, 4⟩ 0 0 h4 (by simp [mixPatch]) (by decide) (by decide)]
  have hsrc : ∀ i v, i ∈ (mixPatch a b c).nodes → G.graph.getNode i = some ⟨i, 0, 1, some v⟩ → sig i 0 0 = v := by
    intro i v hi hv
    obtain ⟨d, out, st, e1, e2, _, e4⟩ := hs.run i hi
    rw [hv] at e1
    injection e1 with e1
    subst e1
    simp only [mixOps, mixRun] at e2
    injection e2 with e2
    rw [e4, ← (Prod.mk.inj e2).1]
    rfl
  have s1 := hsrc 1 x (by simp [mixPatch]) n1
  have s2 := hsrc 2 y (by simp [mixPatch]) n2
  have s3 := hsrc 3 y (by simp [mixPatch]) n3
  obtain ⟨d, out, st, e1, e2, _, e4⟩ := hs.run 4 (by simp [mixPatch])
  rw [n4] at e1
  injection e1 with e1
  subst e1
  simp only [mixOps, mixRun] at e2
  injection e2 with e2
  rw [e4, ← (Prod.mk.inj e2).1]
  rcases ho with h | h <;> cases h
  · change some (0 + sig 1 0 0 + sig 2 0 0 + sig 3 0 0) = _
    rw [s1, s2, s3, zero_add]
    rfl
  · change some (0 + sig 2 0 0 + sig 3 0 0 + sig 1 0 0) = _
    rw [s1, s2, s3, zero_add]
    rfl

/-- The claim that the order in which connections are made cannot be heard: two engines with the same nodes and the same
connections, made in different orders, play the same. -/
def OrderIsInaudible (S P C : Type) [AddZeroClass S] : Prop :=
  ∀ (ops : NodeOps S P C) (mf mc sr : Nat) (G₁ G₂ G₁' G₂' : DspGraph S P) (p₁ p₂ : Patch Connection) (env : Env)
    (input output o₁ o₂ : Buf S) (t : Int), 0 < mf → Reachable ops mf mc sr G₁ → Reachable ops mf mc sr G₂ →
    G₁.graph.Shows p₁ → G₂.graph.Shows p₂ → p₁.nodes = p₂.nodes → p₁.conns.Perm p₂.conns →
    (∀ n ∈ p₁.nodes, G₁.graph.getNode n = G₂.graph.getNode n) → G₁.inputEndpoint = G₂.inputEndpoint →
    G₁.outputEndpoint = G₂.outputEndpoint → ValidBlock input output →
    G₁.process ops env input output t = .ok (o₁, G₁') → G₂.process ops env input output t = .ok (o₂, G₂') →
    ∀ c f, o₁.sample? c f = o₂.sample? c f

/-- C108, partial: the order in which connections are made cannot be heard, and leaves the nodes in the same states, as
long as no node has more than two of them and the node connected to the system input not more than one.  Missing: more
connections (see `C108_order_violated`). -/
theorem C108_unheard_partial (ops : NodeOps Sample32 P C) (mf mc sr : Nat) (G₁ G₂ G₁' G₂' : DspGraph Sample32 P)
    (p₁ p₂ : Patch Connection) (env₁ env₂ : Env) (input output o₁ o₂ : Buf Sample32) (t : Int) (hm : 0 < mf)
    (hG₁ : Reachable ops mf mc sr G₁) (hG₂ : Reachable ops mf mc sr G₂) (hp₁ : G₁.graph.Shows p₁)
    (hp₂ : G₂.graph.Shows p₂) (hn : p₁.nodes = p₂.nodes) (hc : p₁.conns.Perm p₂.conns)
    (hb : ∀ n ∈ p₁.nodes, G₁.graph.getNode n = G₂.graph.getNode n) (hin : G₁.inputEndpoint = G₂.inputEndpoint)
    (hout : G₁.outputEndpoint = G₂.outputEndpoint) (hv : ValidBlock input output)
    (h₁ : G₁.process ops env₁ input output t = .ok (o₁, G₁'))
    (h₂ : G₂.process ops env₂ input output t = .ok (o₂, G₂'))
    (htwo : ∀ n ∈ p₁.nodes, (p₁.at' n .incoming).length ≤ 2)
    (hone : ∀ ep, G₁.inputEndpoint = some ep → (p₁.at' ep.dsp .incoming).length ≤ 1) :
    (∀ c f, o₁.sample? c f = o₂.sample? c f) ∧ ∀ n, G₁'.graph.getNode n = G₂'.graph.getNode n := by
  obtain ⟨sig, r1, s1, _⟩ := block_spec hm hG₁ hp₁ hv h₁
  obtain ⟨sig', r2, s2, _⟩ := block_spec hm hG₂ hp₂ hv h₂
  obtain ⟨rank, hrank⟩ := ranked hm hG₁ hp₁ hv h₁
  rw [← hin] at r2
  have key := rendered_agree hrank hn hb (fun i hi hs => received_perm hc _ i (htwo i hi) ?_ hs) r1 r2
  · refine ⟨?_, ?_⟩
    · intro c f
      rw [s1, s2, hout, hn]
      congr 1
      cases G₂.outputEndpoint with
      | none => rfl
      | some ep =>
        simp only [Option.bind_some]
        by_cases h : ep.dsp ∈ p₂.nodes
        · rw [if_pos h, if_pos h, (key _ (hn ▸ h)).1]
        · rw [if_neg h, if_neg h]
    · intro n
      by_cases h : n ∈ p₁.nodes
      · exact (key n h).2
      · rw [r1.gone n h, r2.gone n (hn ▸ h)]
  · intro hlong c f
    unfold arrivesFromSystem
    rw [if_neg]
    rintro ⟨he, _⟩
    cases hep : G₁.inputEndpoint with
    | none => rw [hep] at he; cases he
    | some ep =>
      rw [hep] at he
      injection he with he
      have := hone ep hep
      rw [he] at this
      omega

/-- One. -/
def one32 : Sample32 := ⟨1, by have := Float32.rep_int 1 (by norm_num); simpa using this⟩

/-- Three quarters of 2^-24. -/
def tiny32 : Sample32 := ⟨3 / 2 ^ 26, by have := Float32.rep_div 3 26 (by norm_num) (by norm_num); simpa using this⟩

theorem loud_first : (one32 + tiny32 + tiny32).1 = 1 := by
  have h : Float32.round (1 + 3 / 2 ^ 26) = 1 := by
    rw [Float32.round_eq (e := 0) (by norm_num) (by norm_num) (by norm_num),
      Float32.grid_near (by positivity) (2 ^ 23) (by norm_num [abs_lt])]
    norm_num
  rw [Sample32.add_val, Sample32.add_val]
  change Float32.round (Float32.round (1 + 3 / 2 ^ 26) + 3 / 2 ^ 26) = 1
  rw [h, h]

theorem loud_last : (tiny32 + tiny32 + one32).1 = 1 + 1 / 2 ^ 23 := by
  have h1 : Float32.round (3 / 2 ^ 26 + 3 / 2 ^ 26) = 3 / 2 ^ 25 := by
    have := Sample32.round_of_rep (Float32.rep_div 3 25 (by norm_num) (by norm_num))
    rw [show (3 / 2 ^ 26 + 3 / 2 ^ 26 : ℚ) = ((3 : ℕ) : ℚ) / 2 ^ 25 by norm_num, this]
    norm_num
  have h2 : Float32.round (3 / 2 ^ 25 + 1) = 1 + 1 / 2 ^ 23 := by
    rw [Float32.round_eq (e := 0) (by norm_num) (by norm_num) (by norm_num),
      Float32.grid_near (by positivity) (2 ^ 23 + 1) (by norm_num [abs_lt])]
    norm_num
  rw [Sample32.add_val, Sample32.add_val]
  change Float32.round (Float32.round (3 / 2 ^ 26 + 3 / 2 ^ 26) + 1) = _
  rw [h1, h2]

/-- C108 is violated: of three sources, the order in which they were connected is heard. -/
theorem C108_order_violated : ¬ OrderIsInaudible Sample32 (Option Sample32) Unit := by
  intro hall
  have o1 : MixOrder 1 2 3 := .inl rfl
  have o2 : MixOrder 2 3 1 := .inr rfl
  obtain ⟨G, o, G', a0, a1, a2⟩ := mixGraph_heard one32 tiny32 1 2 3 o1
  obtain ⟨H, q, H', b0, b1, b2⟩ := mixGraph_heard one32 tiny32 2 3 1 o2
  obtain ⟨_, c0, c1, c2, c3, c4, m1, m2, m3, m4⟩ := mixGraph_spec one32 tiny32 1 2 3 o1
  obtain ⟨_, d0, d1, d2, d3, d4, n1, n2, n3, n4⟩ := mixGraph_spec one32 tiny32 2 3 1 o2
  rw [a0] at c0
  injection c0 with c0
  subst c0
  rw [b0] at d0
  injection d0 with d0
  subst d0
  have := hall mixOps 4 1 48000 G H G' H' _ _ Env.plain _ _ o q 0 (by decide) c1 d1 c2 d2 rfl ?_ ?_
    (by rw [c3, d3]) (by rw [c4, d4]) oneFrame_block a1 b1 0 0
  · rw [a2, b2, if_pos rfl, if_neg (by decide)] at this
    injection this with this
    have h := congrArg Subtype.val this
    rw [loud_first, loud_last] at h
    norm_num at h
  · exact (List.perm_append_comm (l₁ := [mixConn 1]) (l₂ := [mixConn 2, mixConn 3]))
  · intro n hn
    simp only [mixPatch, List.mem_cons, List.not_mem_nil, or_false] at hn
    rcases hn with rfl | rfl | rfl | rfl
    · rw [m1, n1]
    · rw [m2, n2]
    · rw [m3, n3]
    · rw [m4, n4]

/-- The hypotheses of `C108_mix` are met by `mixGraph`. -/
example : ∃ G, Reachable mixOps 4 1 48000 G ∧ G.graph.Shows (mixPatch 1 2 3) ∧
    (∃ r, G.process mixOps Env.plain oneFrame oneFrame 0 = .ok r) ∧
    (∀ ep, G.inputEndpoint = some ep → ep.dsp ∉ (mixPatch 1 2 3).nodes) ∧
    (∀ n ∈ (mixPatch 1 2 3).nodes, ∀ k, (mixPatch 1 2 3).at' n .incoming = [k] → k.data.Plain →
      ∀ d s, G.graph.getNode n = some d → G.graph.getNode k.src = some s →
        min d.inputCount s.outputCount ≤ k.data.channelCount) ∧
    ∀ n ∈ (mixPatch 1 2 3).nodes, ((mixPatch 1 2 3).at' n .incoming).length ≤ 2 ^ 20 := by
  obtain ⟨G, o, G', a0, a1, _⟩ := mixGraph_heard one32 tiny32 1 2 3 (.inl rfl)
  obtain ⟨_, c0, c1, c2, c3, _⟩ := mixGraph_spec one32 tiny32 1 2 3 (.inl rfl)
  rw [a0] at c0
  injection c0 with c0
  subst c0
  refine ⟨G, c1, c2, ⟨_, a1⟩, ?_, ?_, ?_⟩
  · intro ep h; rw [c3] at h; cases h
  · intro n hn k hk
    simp only [mixPatch, List.mem_cons, List.not_mem_nil, or_false] at hn
    rcases hn with rfl | rfl | rfl | rfl <;> simp [mixPatch, mixConn, Patch.at', Conn.near] at hk
  · intro n hn
    refine le_trans (List.length_filter_le ..) ?_
    simp [mixPatch]

/-- The patch of two sources, nodes 1 and 2, connected to node 4 in the order `a`, `b`. -/
def pairPatch (a b : Id) : Patch Connection := ⟨[1, 2, 4], [mixConn a, mixConn b]⟩

theorem pair_built (x y : Sample32) (a b : Id) (ho : (a, b) = (1, 2) ∨ (a, b) = (2, 1)) :
    ∃ G, Built G (pairPatch a b) (fun j => if j = 4 then some ⟨4, 1, 1, none⟩ else if j = 2 then some ⟨2, 0, 1, some y⟩
        else if j = 1 then some ⟨1, 0, 1, some x⟩ else none) ∧
      G.outputEndpoint = some ⟨.output, 4⟩ ∧ ∃ r, G.process mixOps Env.plain oneFrame oneFrame 0 = .ok r := by
  have hab : (a = 1 ∨ a = 2) ∧ (b = 2 ∨ b = 1) ∧ a ≠ b := by
    rcases ho with h | h <;> cases h <;> decide
  obtain ⟨ha, hb, h12⟩ := hab
  have h0 : Built (new 4 1 48000) ⟨[], []⟩ (fun _ => none) := ⟨.new, rep_empty, rfl, fun _ => rfl⟩
  obtain ⟨G1, _, g1⟩ := built_add h0 ⟨1, 0, 1, some x⟩ (by simp)
  obtain ⟨G2, _, g2⟩ := built_add g1 ⟨2, 0, 1, some y⟩ (by simp)
  obtain ⟨G4, _, g4⟩ := built_add g2 ⟨4, 1, 1, none⟩ (by simp)
  obtain ⟨G5, _, g5⟩ := built_connect g4 a (by rcases ha with rfl | rfl <;> simp) (by simp) (by simp)
  obtain ⟨G6, _, r1, r2, r3, r4⟩ := built_connect g5 b (by rcases hb with rfl | rfl <;> simp) (by simp)
    (by simp [mixConn, h12])
  refine ⟨G6.connectToOutput ⟨.output, 4⟩, ⟨.toOutput 4 r1, r2, r3, r4⟩, rfl, ?_⟩
  have hvo : (pairPatch a b).ValidOrder [1, 2, 4] := by
    refine ⟨by decide, fun _ => Iff.rfl, ?_⟩
    have h1 : ∃ u v w, [1, 2, 4] = u ++ 1 :: (v ++ 4 :: w) := ⟨[], [2], [], rfl⟩
    have h2 : ∃ u v w, [1, 2, 4] = u ++ 2 :: (v ++ 4 :: w) := ⟨[1], [], [], rfl⟩
    intro k hk
    rcases ho with h | h <;> cases h <;>
      simp only [pairPatch, List.mem_cons, List.not_mem_nil, or_false] at hk <;> rcases hk with rfl | rfl <;>
      assumption
  refine C13_enough_buffers mixOps 4 1 48000 (by decide) _ (.toOutput 4 r1) (pairPatch a b) r2.shows
    (TopologicalSort.acyclic_of_valid hvo) ?_ ⟨?_, ?_⟩ (by simp [pairPatch]) ?_ _ _ _ oneFrame_block 0
  · rcases ho with h | h <;> cases h <;> simp [Patch.NoParallel, pairPatch, mixConn]
  · intro i d hd
    have hd := (r4 i).symm.trans hd
    simp only at hd
    split_ifs at hd <;> injection hd with hd <;> subst hd <;> simp
  · intro k hk
    simp only [pairPatch, List.mem_cons, List.not_mem_nil, or_false] at hk
    rcases hk with rfl | rfl <;> simp [mixConn, Connection.new]
  · intro s b
    cases s <;> exact ⟨_, rfl⟩

/-- The hypotheses of `C108_unheard_partial` are met by two sources connected in both orders. -/
example : ∃ G₁ G₂, Reachable mixOps 4 1 48000 G₁ ∧ Reachable mixOps 4 1 48000 G₂ ∧ G₁.graph.Shows (pairPatch 1 2) ∧
    G₂.graph.Shows (pairPatch 2 1) ∧ (pairPatch 1 2).conns.Perm (pairPatch 2 1).conns ∧
    (∀ n, G₁.graph.getNode n = G₂.graph.getNode n) ∧ G₁.inputEndpoint = none ∧ G₂.inputEndpoint = none ∧
    G₁.outputEndpoint = G₂.outputEndpoint ∧ (∃ r, G₁.process mixOps Env.plain oneFrame oneFrame 0 = .ok r) ∧
    (∃ r, G₂.process mixOps Env.plain oneFrame oneFrame 0 = .ok r) ∧
    ∀ n ∈ (pairPatch 1 2).nodes, ((pairPatch 1 2).at' n .incoming).length ≤ 2 := by
  obtain ⟨G, ⟨a1, a2, a3, a4⟩, a5, a6⟩ := pair_built one32 tiny32 1 2 (.inl rfl)
  obtain ⟨H, ⟨b1, b2, b3, b4⟩, b5, b6⟩ := pair_built one32 tiny32 2 1 (.inr rfl)
  exact ⟨G, H, a1, b1, a2.shows, b2.shows, List.Perm.swap .., fun n => by rw [a4, b4], a3, b3, by rw [a5, b5], a6, b6,
    fun n _ => List.length_filter_le ..⟩

/-- `C108_two` applies to a patch of two sources. -/
example : (⟨[1, 2, 4], [mixConn 1, mixConn 2]⟩ : Patch Connection).arriving
    (fun i _ _ => if i = 1 then one32 else tiny32) 4 0 0 = [one32, tiny32] := rfl

/-- `C108_order_partial` applies to the two orders of the counterexample. -/
example : (mixPatch 1 2 3).conns.Perm (mixPatch 2 3 1).conns ∧
    ((mixPatch 1 2 3).arriving (fun _ _ _ => one32) 4 0 0).length ≤ 2 ^ 20 :=
  ⟨List.perm_append_comm (l₁ := [mixConn 1]) (l₂ := [mixConn 2, mixConn 3]),
    by simp [mixPatch, mixConn, Patch.arriving, Patch.at', Conn.near, Connection.Feeds, Connection.new]⟩

end DspGraph
end Rawdio
