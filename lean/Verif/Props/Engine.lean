import Verif.Lemmas.EngineSplit
import Verif.Lemmas.EngineControl
import Verif.Props.Render

/-!
# Properties of the engine (C01 to C06)

`sr`, `mc`, `mf` are the configured sample rate, maximum channel count and maximum frame count.
`Processor.calls ops (Processor.new sr mc mf) ks = .ok E` says that `E` is an engine after the
process calls `ks`, each with the commands it received.
-/

namespace Rawdio
namespace Processor

open DspGraph

variable {S P C : Type}

/-! ## A concrete session used by the examples -/

/-- A stereo block of ten frames of sevens. -/
def tenSevens : Buf Int := .owned (List.replicate 20 7) 2 10 48000

/-- Commands that build the patch `probePatch 2` with the probe connected to the system output, and
start the engine. -/
def demoCommands : List (Command (Option Int) Unit × Luck) :=
  [(.addDsp ⟨1, 0, 2, none⟩, .plain), (.addDsp ⟨2, 2, 2, some 0⟩, .plain),
    (.addConnection (Connection.new 1 2 2), .plain), (.connectToOutput ⟨.output, 2⟩, .plain),
    (.connectToInput ⟨.input, 1⟩, .plain), (.start, .plain)]

/-- A call of ten frames that receives the commands. -/
def demoCall (cs : List (Command (Option Int) Unit × Luck)) : Call Int (Option Int) Unit :=
  ⟨cs, tenSevens, tenSevens, fun _ => Env.plain⟩

theorem demoCall_valid (cs : List (Command (Option Int) Unit × Luck)) (h : ∀ c ∈ cs, c.1.Api) :
    (demoCall cs).Valid :=
  ⟨rfl, rfl, trivial, le_refl _, h⟩

theorem demoCommands_api : ∀ c ∈ demoCommands, c.1.Api := by
  intro c hc
  simp only [demoCommands, List.mem_cons, List.not_mem_nil, or_false] at hc
  rcases hc with rfl | rfl | rfl | rfl | rfl | rfl <;> trivial

/-- The patch of `demoCommands`. -/
def demoPatch : Patch Connection := ⟨[1, 2], [⟨0, 1, 2, Connection.new 1 2 2⟩]⟩

/-- The commands are accepted, and the engine is then ready to render. -/
theorem demo_commands : ∃ E0, (new 48000 2 4 : Processor Int (Option Int)).processCommands probeOps
      demoCommands = .ok E0 ∧ E0.started = true ∧ E0.maxFrames = 4 ∧
      Ready probeOps 4 2 48000 E0.graph ∧ E0.graph.graph.Shows demoPatch ∧
      E0.graph.graph.getNode 1 = some ⟨1, 0, 2, none⟩ ∧
      E0.graph.graph.getNode 2 = some ⟨2, 2, 2, some 0⟩ := by
  obtain ⟨E0, h0⟩ : ∃ E0, (new 48000 2 4 : Processor Int (Option Int)).processCommands probeOps
      demoCommands = .ok E0 := ⟨_, rfl⟩
  have h1 : E0.started = true ∧ E0.maxFrames = 4 ∧
      E0.graph.graph.getNode 1 = some ⟨1, 0, 2, none⟩ ∧
      E0.graph.graph.getNode 2 = some ⟨2, 2, 2, some 0⟩ := by
    injection h0 with h0
    subst h0
    exact ⟨rfl, rfl, rfl, rfl⟩
  have hE := processCommands_inv (by decide : 0 < 4) _ _ _ (einv_new probeOps 4 2 48000)
    demoCommands_api h0
  obtain ⟨W, e1, e2, _⟩ := processCommands_looks (by decide : 0 < 4) _ _ _ View.empty
    (einv_new probeOps 4 2 48000) (looks_new ..) demoCommands_api h0
  have hW : ∃ k, W.patch = ⟨[1, 2], [⟨k, 1, 2, Connection.new 1 2 2⟩]⟩ := by
    cases e1 with
    | cons s1 e1 => cases s1 with
    | addDsp _ q p1 => cases p1; cases e1 with
    | cons s1 e1 => cases s1 with
    | addDsp _ q p1 => cases p1; cases e1 with
    | cons s1 e1 => cases s1 with
    | addConnection _ k q hk p1 => cases p1; cases e1 with
    | cons s1 e1 => cases s1; cases e1 with
    | cons s1 e1 => cases s1; cases e1 with
    | cons s1 e1 => cases s1; cases e1; exact ⟨k, rfl⟩
  obtain ⟨k, hW⟩ := hW
  have hk : k = 0 := by
    have hs := e2.inv.rep.shows
    rw [hW] at hs
    have := hs.edges 1 (by simp) .outgoing
    injection h0 with h0
    subst h0
    have h2 : (.ok [0] : Res (List Id)) = .ok [k] := this
    injection h2 with h2
    injection h2 with h2
    exact h2.symm
  subst hk
  refine ⟨E0, h0, h1.1, h1.2.1, ⟨hE.reach, _, e2.inv, ?_, ?_, ⟨?_, ?_⟩, ?_⟩, ?_, h1.2.2⟩
  · rw [hW]
    refine TopologicalSort.acyclic_of_valid (order := [1, 2]) ⟨by decide, fun _ => Iff.rfl, ?_⟩
    intro c hc
    simp only [List.mem_singleton] at hc
    subst hc
    exact ⟨[], [], [], rfl⟩
  · rw [hW]; simp [Patch.NoParallel]
  · intro i d hd
    have := (e2.inv.rep.shows.nodes i).mpr ⟨d, hd⟩
    rw [hW] at this
    simp only [List.mem_cons, List.not_mem_nil, or_false] at this
    rcases this with rfl | rfl
    · rw [h1.2.2.1] at hd; injection hd with hd; subst hd; exact ⟨by decide, by decide⟩
    · rw [h1.2.2.2] at hd; injection hd with hd; subst hd; exact ⟨by decide, by decide⟩
  · intro c hc
    rw [hW] at hc
    simp only [List.mem_singleton] at hc
    subst hc
    simp [Connection.new]
  · rw [hW]; decide
  · rw [show demoPatch = W.patch from hW.symm]
    exact e2.inv.rep.shows

theorem probeOps_run (s : Option Int) (b : NodeBlock Int) : ∃ r, probeOps.run s b = .ok r := by
  cases s <;> exact ⟨_, rfl⟩

/-- Sessions of two calls, of which the first receives the commands. -/
theorem demo_session (k k' : Call Int (Option Int) Unit) (hk : k.Valid) (hk' : k'.Valid)
    (hc : k.commands = demoCommands) (hc' : k'.commands = []) :
    ∃ o E, (new 48000 2 4).process probeOps k.env k.commands k.input k.output = .ok (o, E) ∧
      ∃ o' E', E.process probeOps k'.env k'.commands k'.input k'.output = .ok (o', E') := by
  obtain ⟨E0, h0, h1, h2, h3, h4, _⟩ := demo_commands
  rw [← hc] at h0
  obtain ⟨⟨o, E⟩, hr⟩ := process_ready (by decide : 0 < 4) probeOps_run hk h2 h0 (fun _ => h3)
  refine ⟨o, E, hr, ?_⟩
  obtain ⟨E1, o1, p1, p2, p3, p4, p5, p6, p7⟩ := process_parts hk.outWF hk.writable hr
  have : E1 = E0 := by
    have := h0.symm.trans p1
    injection this with this
    exact this.symm
  subst this
  obtain ⟨G', l1, rfl⟩ := render_started h1 p7
  have hE := processCommands_inv (by decide : 0 < 4) _ _ _ (einv_new probeOps 4 2 48000)
    hk.api h0
  rw [hE.frames, hE.rate] at l1
  obtain ⟨hG', _⟩ := processLoop_spec (ready_writesSlice probeOps k.env (by decide))
    (by decide) hk.inWF _ _ _ _ _ _ [] h3 p4 p5 (by rw [← p3.frameCount]; exact hk.enough)
    (Nat.zero_le _) l1
  obtain ⟨⟨o', E'⟩, hr'⟩ := process_ready (by decide : 0 < 4) probeOps_run hk'
    (E := updatePosition { E1 with graph := G' } o1.frameCount)
    (E0 := updatePosition { E1 with graph := G' } o1.frameCount) (mc := 2) (sr := 48000) hE.frames
    (by rw [hc']; rfl) (fun _ => hG')
  exact ⟨o', E', hr'⟩

/-- The session: the commands and ten frames, then ten more frames. -/
theorem demo_calls : ∃ o E, (new 48000 2 4).process probeOps (fun _ => Env.plain) demoCommands
      tenSevens tenSevens = .ok (o, E) ∧ ∃ o' E', E.process probeOps (fun _ => Env.plain) []
      tenSevens tenSevens = .ok (o', E') :=
  demo_session (demoCall demoCommands) (demoCall []) (demoCall_valid _ demoCommands_api)
    (demoCall_valid [] (by intro c hc; cases hc)) rfl rfl

/-! ## C01 -/

/-- C01: a process call that finds the engine stopped once it has taken its commands fills the output
with silence and leaves the clock alone. -/
theorem C01_stopped_silent [Zero S] [Add S] (ops : NodeOps S P C) (mf mc sr : Nat)
    (ks : List (Call S P C)) (hks : ∀ k ∈ ks, k.Valid) (E : Processor S P)
    (hE : calls ops (new sr mc mf) ks = .ok E) (k : Call S P C) (hk : k.Valid) (o : Buf S)
    (E' : Processor S P) (h : E.process ops k.env k.commands k.input k.output = .ok (o, E'))
    (hstop : Command.running (history (ks ++ [k])) = false) :
    k.output.SameShape o ∧
    (∀ c f, c < k.output.channelCount → f < k.output.frameCount → o.sample? c f = some 0) ∧
    E'.currentTime = E.currentTime := by
  obtain ⟨E0, o0, p1, p2, p3, p4, p5, p6, p7⟩ := process_parts hk.outWF hk.writable h
  obtain ⟨c1, _⟩ := calls_clock ks _ E [] hks rfl rfl (looks_new mf mc sr).time hE
  obtain ⟨_, _, _, f4, f5, _⟩ := processCommands_frame _ _ _ p1
  have hs : E0.started = false := by
    rw [history_append] at hstop
    unfold Command.running at hstop c1
    rw [Command.latest_append] at hstop
    rw [f5, c1, List.nil_append]
    have : history [k] = k.commands.map Prod.fst := by
      rw [history, List.flatMap_cons, List.flatMap_nil, List.append_nil]
    rw [this] at hstop
    cases hl : Command.latest Command.transport (k.commands.map Prod.fst) with
    | none => rw [hl] at hstop; exact hstop
    | some b => rw [hl] at hstop; exact hstop
  obtain ⟨rfl, rfl⟩ := render_stopped hs p7
  exact ⟨p3, p6, f4⟩

/-- C01: such a call fails only if one of its commands does. -/
theorem C01_stopped_returns [Zero S] [Add S] (ops : NodeOps S P C) (E E0 : Processor S P)
    (k : Call S P C) (hk : k.Valid) (h : E.processCommands ops k.commands = .ok E0)
    (hs : E0.started = false) :
    ∃ o, E.process ops k.env k.commands k.input k.output = .ok (o, E0) := by
  obtain ⟨o0, e1, _⟩ := Buf.C36_clear k.output hk.outWF hk.writable
  refine ⟨o0, (ok_bind e1).trans ((ok_bind h).trans ?_)⟩
  unfold render
  rw [hs]
  exact if_neg (by simp)

/-- A session in which the engine is started and then stopped. -/
example : ∃ ks E k o E', (∀ k ∈ ks, k.Valid) ∧ k.Valid ∧
    calls probeOps (new 48000 2 4) ks = .ok E ∧
    E.process probeOps k.env k.commands k.input k.output = .ok (o, E') ∧
    Command.running (history ks) = true ∧ Command.running (history (ks ++ [k])) = false := by
  obtain ⟨o, E, h, _⟩ := demo_calls
  have hv : (demoCall [(.stop, .plain)]).Valid := demoCall_valid _ (by
    intro c hc; simp only [List.mem_singleton] at hc; subst hc; trivial)
  obtain ⟨o', h'⟩ := C01_stopped_returns probeOps E { E with started := false } _ hv rfl rfl
  refine ⟨[demoCall demoCommands], E, demoCall [(.stop, .plain)], o', _, ?_, hv, ok_bind h, h', rfl,
    rfl⟩
  intro k hk
  simp only [List.mem_singleton] at hk
  subst hk
  exact demoCall_valid _ demoCommands_api

/-! ## C02 -/

/-- C02: the clock shows the timestamp nearest to the number of frames processed while running, with
an error of at most half a unit. -/
theorem C02_clock [Zero S] [Add S] (ops : NodeOps S P C) (mf mc sr : Nat)
    (ks : List (Call S P C)) (hks : ∀ k ∈ ks, k.Valid) (E : Processor S P)
    (hE : calls ops (new sr mc mf) ks = .ok E) :
    NearestTime (framesRun [] ks) sr E.currentTime ∧
    |(E.currentTime : ℚ) / 2 ^ 32 - (framesRun [] ks : ℚ) / sr| ≤ 1 / 2 ^ 33 := by
  obtain ⟨_, _, c3, c4⟩ := calls_clock ks _ E [] hks rfl rfl (looks_new mf mc sr).time hE
  have hp : E.framePosition = framesRun [] ks := by
    rw [c3]; exact Nat.zero_add _
  rw [c4, hp]
  refine ⟨fromSamples_nearest _ _, ?_⟩
  change |((Timestamp.fromSamples (framesRun [] ks : ℚ) sr : Int) : ℚ) / 2 ^ 32 - _| ≤ _
  have h := Timestamp.fromSamples_error (framesRun [] ks : ℚ) sr
  rw [show ((Timestamp.fromSamples (framesRun [] ks : ℚ) sr : Int) : ℚ) / 2 ^ 32 -
    (framesRun [] ks : ℚ) / sr = ((Timestamp.fromSamples (framesRun [] ks : ℚ) sr : ℚ) -
      (framesRun [] ks : ℚ) / sr * Timestamp.one) / 2 ^ 32 by
      simp only [Timestamp.one]; ring, abs_div]
  rw [div_le_div_iff₀ (by norm_num) (by norm_num)]
  rw [abs_of_pos (by norm_num : (0 : ℚ) < 2 ^ 32)]
  nlinarith

/-- C02: two sessions of one engine configuration that ran for the same number of frames, however
divided, show the same time. -/
theorem C02_schedule_independent [Zero S] [Add S] (ops ops' : NodeOps S P C) (mf mc mf' mc' sr : Nat)
    (ks ks' : List (Call S P C)) (hks : ∀ k ∈ ks, k.Valid) (hks' : ∀ k ∈ ks', k.Valid)
    (E E' : Processor S P) (hE : calls ops (new sr mc mf) ks = .ok E)
    (hE' : calls ops' (new sr mc' mf') ks' = .ok E') (heq : framesRun [] ks = framesRun [] ks') :
    E.currentTime = E'.currentTime := by
  obtain ⟨_, _, c3, c4⟩ := calls_clock ks _ E [] hks rfl rfl (looks_new mf mc sr).time hE
  obtain ⟨_, _, d3, d4⟩ := calls_clock ks' _ E' [] hks' rfl rfl (looks_new mf' mc' sr).time hE'
  rw [c4, d4, c3, d3, heq]
  rfl

/-- C02: the clock never goes backwards. -/
theorem C02_monotone [Zero S] [Add S] (ops : NodeOps S P C) (mf mc sr : Nat)
    (ks ls : List (Call S P C)) (hks : ∀ k ∈ ks ++ ls, k.Valid) (E E' : Processor S P)
    (hE : calls ops (new sr mc mf) ks = .ok E)
    (hE' : calls ops (new sr mc mf) (ks ++ ls) = .ok E') : E.currentTime ≤ E'.currentTime := by
  obtain ⟨c1, c2, c3, c4⟩ := calls_clock ks _ E [] (fun k hk => hks k (by simp [hk])) rfl rfl
    (looks_new mf mc sr).time hE
  obtain ⟨E1, h1, h2⟩ := (calls_append _ _ _ _).mp hE'
  rw [hE] at h1
  injection h1 with h1
  subst h1
  obtain ⟨_, _, d3, d4⟩ := calls_clock ls E E' _ (fun k hk => hks k (by simp [hk])) c1 c2 c4 h2
  rw [c4, d4, d3]
  apply Timestamp.fromSamples_mono
  push_cast
  linarith [(Nat.cast_nonneg (framesRun ([] ++ history ks) ls) : (0 : ℚ) ≤ _)]

/-- A session of twenty frames in two calls. -/
example : ∃ ks E, (∀ k ∈ ks, k.Valid) ∧ calls probeOps (new 48000 2 4) ks = .ok E ∧
    framesRun [] ks = 20 := by
  obtain ⟨o, E, h, o', E', h'⟩ := demo_calls
  refine ⟨[demoCall demoCommands, demoCall []], E', ?_, (ok_bind h).trans (ok_bind h'), rfl⟩
  intro k hk
  simp only [List.mem_cons, List.not_mem_nil, or_false] at hk
  rcases hk with rfl | rfl
  · exact demoCall_valid _ demoCommands_api
  · exact demoCall_valid _ (by intro c hc; cases hc)

/-! ## C03 -/

/-- The claim that a process call uses the graph on consecutive blocks that cover the call once and
in order, none empty and none larger than the maximum, each given its window of the buffers and its
time; that the result shows what the graph wrote for each block; and that the call returns if the
graph always does. -/
def BlocksCoverCall (mf : Nat) : Prop :=
  ∀ (γ S : Type) (I : γ → Prop) (run : Nat → γ → Buf S → Buf S → Int → Res (Buf S × γ))
    (sr : Nat) (now : Int) (input output : Buf S) (g : γ),
    WritesSlice I run → I g → input.WF → output.WF → output.Writable →
    output.frameCount ≤ input.frameCount →
    (∀ o' g', processGraph run mf sr now input g output = .ok (o', g') →
      output.SameShape o' ∧ ∃ log blocks,
        processGraph (observed run) mf sr now input (g, []) output = .ok (o', (g', log)) ∧
        Tiles mf 0 output.frameCount blocks ∧
        List.Forall₂ (fun e b => e.Covers input output.channelCount now sr b ∧
          ∀ c f, f < b.2 → o'.sample? c (b.1 + f) = e.result.sample? c f) log blocks) ∧
    ((∀ offset g input output t, I g → ValidBlock input output →
        ∃ r, run offset g input output t = .ok r) →
      ∃ r, processGraph run mf sr now input g output = .ok r)

/-- C03, partial: the claim holds for every maximum frame count except 0 (missing; see
`C03_blocks_violated`). -/
theorem C03_blocks_partial (mf : Nat) (hm : 0 < mf) : BlocksCoverCall mf := by
  intro γ S I run sr now input output g hrun hg hi hw hmo he
  refine ⟨?_, ?_⟩
  · intro o' g' h
    obtain ⟨_, h2, _, _, _, log, blocks, h6, h7, h8⟩ := processLoop_spec hrun hm hi _ _ _ _ _ _ []
      hg hw hmo he (Nat.zero_le _) h
    exact ⟨h2, log, blocks, h6, h7, h8⟩
  · intro hok
    exact processLoop_progress hrun hok hm hi _ _ _ _ hg hw hmo he (Nat.zero_le _) (by omega)

/-- C03: the graph of an engine behaves as `BlocksCoverCall` asks. -/
theorem C03_graph_writes_slice [Zero S] [Add S] (ops : NodeOps S P C) (env : Nat → Env)
    (mf mc sr : Nat) (hm : 0 < mf) :
    WritesSlice (DspGraph.Reachable ops mf mc sr) (runGraph ops env) :=
  runGraph_writesSlice ops env hm

example : ∃ G : DspGraph Int (Option Int), DspGraph.Reachable probeOps 4 2 48000 G :=
  let ⟨G, _, h, _⟩ := probeGraph_spec 2
  ⟨G, h⟩

/-- C03 is violated when the maximum frame count is 0: the loop makes no progress. -/
theorem C03_blocks_violated : ¬ BlocksCoverCall 0 := by
  intro h
  obtain ⟨_, h2⟩ := h Unit Int (fun _ => True) (fun _ g _ output _ => .ok (output, g)) 48000 0
    tenSevens tenSevens () (by
      intro offset g input p r t o' g' _ hv hr
      injection hr with hr
      obtain ⟨rfl, _⟩ := Prod.mk.inj hr
      exact ⟨trivial, p, rfl, Buf.SameShape.refl _, hv.outWF.1, hv.writable.2, fun _ _ _ => rfl⟩)
    trivial rfl rfl trivial (le_refl _)
  obtain ⟨r, hr⟩ := h2 (fun _ g _ output _ _ _ => ⟨(output, g), rfl⟩)
  have key : ∀ fuel, processLoop (fun _ (g : Unit) (_ output : Buf Int) (_ : Int) =>
      (.ok (output, g) : Res (Buf Int × Unit))) 0 48000 0 tenSevens fuel 0 () tenSevens =
      .error .diverge := by
    intro fuel
    induction fuel with
    | zero => rfl
    | succ fuel ih =>
      rw [processLoop_step (le_refl _) (by decide)]
      exact ih
  rw [processGraph, key] at hr
  cases hr

/-- C03 is violated, at the level of the engine: a new engine configured with a maximum frame count of
0 does not return from its first call of at least one frame, whatever bound is put on the number of
rounds of the loop. -/
theorem C03_zero_maximum_violated [Zero S] [Add S] (ops : NodeOps S P C) (env : Nat → Env)
    (mc sr : Nat) (luck : Luck) (input output : Buf S) (hw : output.WF) (hmo : output.Writable)
    (hn : 0 < output.frameCount) (he : output.frameCount ≤ input.frameCount) :
    (∀ fuel now output', output'.frameCount = output.frameCount →
      processLoop (runGraph ops env) 0 sr now input fuel 0 (new sr mc 0 : Processor S P).graph output' =
        .error .diverge) ∧
    (new sr mc 0 : Processor S P).process ops env [(.start, luck)] input output =
      .error .diverge := by
  have key : ∀ fuel now output', output'.frameCount = output.frameCount →
      processLoop (runGraph ops env) 0 sr now input fuel 0 (new sr mc 0 : Processor S P).graph output' =
        .error .diverge := by
    intro fuel now output' hf
    induction fuel with
    | zero => rfl
    | succ fuel ih =>
      rw [processLoop_step (by omega) (by omega)]
      have h0 : min (output'.frameCount - 0) 0 = 0 := Nat.min_zero _
      rw [h0]
      have hrun : ∀ i o t, runGraph ops env 0 (new sr mc 0 : Processor S P).graph i o t =
          .ok (o, (new sr mc 0 : Processor S P).graph) := by
        intro i o t
        have hd : (new sr mc 0 : Processor S P).graph.pools.drain (env 0).drain =
            .ok (new sr mc 0 : Processor S P).graph.pools := by
          unfold Pools.drain HMap.iterKeys
          have hk : (env 0).drain.order (new sr mc 0 : Processor S P).graph.pools.assigned.keys =
              [] := ((env 0).drain.perm _).eq_nil
          rw [hk]
          rfl
        exact ok_bind hd
      rw [hrun]
      exact ih
  refine ⟨key, ?_⟩
  obtain ⟨o0, e1, e2, _⟩ := Buf.C36_clear output hw hmo
  refine (ok_bind e1).trans ?_
  have := key (o0.frameCount + 1) 0 o0 e2.frameCount.symm
  have e : render ops env { (new sr mc 0 : Processor S P) with started := true } input o0 =
      .error .diverge := by
    unfold render
    rw [if_pos rfl]
    exact (congrArg (fun x : Res (Buf S × DspGraph S P) => x >>= _) this)
  exact e

example : tenSevens.WF ∧ tenSevens.Writable ∧ 0 < tenSevens.frameCount :=
  ⟨rfl, trivial, by decide⟩

/-! ## C04 -/

/-- C04: in any interleaving of any number of sending threads with the audio thread, the commands
applied so far followed by those still in the channel are exactly the commands sent, in the order
sent. -/
theorem C04_channel_order [Zero S] [Add S] (ops : NodeOps S P C) (sr mc mf : Nat)
    (as : List (Action S P C)) (s : System S P C) (h : System.Run ops (System.fresh sr mc mf) as s) :
    applied as ++ s.channel = sent as :=
  (System.run_channel h).trans (List.nil_append _)

/-- C04: each thread's commands are applied in that thread's order, once each and none skipped. -/
theorem C04_thread_order [Zero S] [Add S] (ops : NodeOps S P C) (sr mc mf : Nat)
    (as : List (Action S P C)) (s : System S P C) (h : System.Run ops (System.fresh sr mc mf) as s)
    (i : Nat) : ofThread i (applied as) <+: ofThread i (sent as) := by
  rw [← C04_channel_order ops sr mc mf as s h]
  unfold ofThread
  rw [List.filter_append]
  exact List.prefix_append _ _

/-- C04: when a process call returns, everything sent before has been applied; and the run so far,
with all its interleavings, is the same as a sequence of process calls that received those commands
in that order. -/
theorem C04_interleavings [Zero S] [Add S] (ops : NodeOps S P C) (sr mc mf : Nat)
    (as : List (Action S P C)) (env : Nat → Env) (o : Buf S) (s : System S P C)
    (h : System.Run ops (System.fresh sr mc mf) (as ++ [.leave env o]) s) :
    applied as = sent as ∧
    ∃ ks k E, calls ops (new sr mc mf) ks = .ok E ∧
      E.process ops k.env k.commands k.input k.output = .ok (o, s.engine) ∧
      history (ks ++ [k]) = (sent as).map Prod.snd ∧
      (ks ++ [k]).map (fun k => (k.input, k.output)) = entered as := by
  obtain ⟨t, h1, h2⟩ := System.run_append h
  have hstep : System.Step ops t (.leave env o) s := by
    generalize hx : [Action.leave env o] = xs at h2
    cases h2 with
    | nil => cases hx
    | @snoc u _ bs a r1 r2 =>
      cases bs with
      | nil =>
        injection hx with hx
        subst hx
        generalize hy : ([] : List (Action S P C)) = ys at r1
        cases r1 with
        | nil => exact r2
        | snoc => simp at hy
      | cons b bs => simp at hx
  have hch := C04_channel_order ops sr mc mf as t h1
  obtain ⟨ks, k, E, e1, e2, e3, e4, _⟩ := System.leave_explained (System.run_explained h1) hstep
  have happ : applied as = sent as := by
    cases hstep with
    | leave => simpa using hch
  exact ⟨happ, ks, k, E, e1, e2, by rw [← happ]; exact e3, e4⟩

/-- A run with two threads, in which a command is sent while the audio thread is in a call. -/
example : ∃ s, System.Run probeOps (System.fresh 48000 2 4)
    ([.send 1 (.addDsp ⟨1, 0, 2, none⟩), .send 2 (.addDsp ⟨2, 2, 2, some 0⟩),
      .enter tenSevens tenSevens, .receive 1 (.addDsp ⟨1, 0, 2, none⟩) .plain,
      .send 1 (.addConnection (Connection.new 1 2 2)),
      .receive 2 (.addDsp ⟨2, 2, 2, some 0⟩) .plain,
      .receive 1 (.addConnection (Connection.new 1 2 2)) .plain] ++
      [.leave (fun _ => Env.plain) (.owned (List.replicate 20 0) 2 10 48000)]) s := by
  refine ⟨_, .snoc (as := [_, _, _, _, _, _, _]) (.snoc (as := [_, _, _, _, _, _])
    (.snoc (as := [_, _, _, _, _]) (.snoc (as := [_, _, _, _]) (.snoc (as := [_, _, _])
    (.snoc (as := [_, _]) (.snoc (as := [_]) (.snoc (as := []) (.nil _) (.send _ 1 _))
    (.send _ 2 _)) (.enter _ _ _ _ _ rfl)) (.receive _ _ _ _ _ _ _ rfl)) (.send _ 1 _))
    (.receive _ _ _ _ _ _ _ rfl)) (.receive _ _ _ _ _ _ _ rfl)) (.leave _ _ _ _ _ _ rfl)⟩

/-- C04: the engine refines its specification: after any sequence of process calls it is what the
commands received so far make of a new engine (`View.Session`), and the next process call applies its
commands in order and then renders exactly that (`View.Call`). -/
theorem C04_refines [AddZeroClass S] (ops : NodeOps S P C) (mf mc sr : Nat) (hm : 0 < mf)
    (ks : List (Call S P C)) (hks : ∀ k ∈ ks, k.Valid) (E : Processor S P)
    (hE : calls ops (new sr mc mf) ks = .ok E) :
    ∃ V, View.Session ops mf mc sr ks V ∧ E.graph.graph.Shows V.patch ∧
      (∀ i, E.graph.graph.getNode i = V.node i) ∧
      ∀ (k : Call S P C) (o : Buf S) (E' : Processor S P), k.Valid →
        E.process ops k.env k.commands k.input k.output = .ok (o, E') →
        ∃ W, View.Call ops mf mc sr V k o.sample? W ∧ E'.graph.graph.Shows W.patch ∧
          ∀ i, E'.graph.graph.getNode i = W.node i := by
  obtain ⟨V, h1, h2, h3⟩ := calls_looks hm ks E hks hE
  refine ⟨V, h1, h2.inv.rep.shows, h2.node, ?_⟩
  intro k o E' hk h
  obtain ⟨W, j1, j2, _, _⟩ := process_looks hm h3 h2 hk h
  exact ⟨W, j1, j2.inv.rep.shows, j2.node⟩

/-- C04: two sessions that receive the same commands (with the same luck), however distributed over
process calls of any sizes, leave the same graph: the same transport state, endpoints, nodes with
the same channel counts, and connections in the same order. -/
theorem C04_batching [Zero S] [Add S] (ops : NodeOps S P C) (mf mc sr mf' mc' sr' : Nat)
    (ks ls : List (Call S P C)) (E E' : Processor S P)
    (hE : calls ops (new sr mc mf) ks = .ok E) (hE' : calls ops (new sr' mc' mf') ls = .ok E')
    (hsame : ks.flatMap Call.commands = ls.flatMap Call.commands) :
    E.started = E'.started ∧ E.graph.inputEndpoint = E'.graph.inputEndpoint ∧
    E.graph.outputEndpoint = E'.graph.outputEndpoint ∧
    (∀ i, (E.graph.graph.getNode i).map (fun d => (d.id, d.inputCount, d.outputCount)) =
      (E'.graph.graph.getNode i).map (fun d => (d.id, d.inputCount, d.outputCount))) ∧
    (∀ k, E.graph.graph.getEdge k = E'.graph.graph.getEdge k) ∧
    ∀ n dir, E.graph.graph.edgeIds n dir = E'.graph.graph.edgeIds n dir := by
  obtain ⟨h1, _⟩ := calls_control ks (new sr mc mf) E List.nodup_nil hE
  obtain ⟨h2, _⟩ := calls_control ls (new sr' mc' mf') E' List.nodup_nil hE'
  rw [hsame] at h1
  have h3 : (.ok (control E) : Res Control) = .ok (control E') := h1.symm.trans h2
  injection h3 with h3
  have hg : E.graph.graph.mapNodes bare = E'.graph.graph.mapNodes bare := congrArg Control.graph h3
  refine ⟨congrArg Control.started h3, congrArg Control.input h3, congrArg Control.output h3, ?_, ?_,
    ?_⟩
  · intro i
    have := congrArg (fun g => (Graph.getNode g i).map
      (fun d : Dsp Unit => (d.id, d.inputCount, d.outputCount))) hg
    simp only [Graph.getNode_mapNodes, Option.map_map] at this
    exact this
  · intro k
    exact congrArg (fun g : Graph (Dsp Unit) Connection => Graph.getEdge g k) hg
  · intro n dir
    have := congrArg (fun g => Graph.edgeIds g n dir) hg
    simp only [Graph.edgeIds_mapNodes] at this
    exact this

/-- Two sessions that receive `demoCommands`, at once and in two parts. -/
example : ∃ ks ls E E', calls probeOps (new 48000 2 4) ks = .ok E ∧
    calls probeOps (new 48000 2 4) ls = .ok E' ∧ ks.length = 1 ∧ ls.length = 2 ∧
    ks.flatMap Call.commands = demoCommands ∧ ls.flatMap Call.commands = demoCommands := by
  obtain ⟨o, E, h, _⟩ := demo_calls
  have hv1 : (demoCall (demoCommands.take 3)).Valid := demoCall_valid _
    (fun c hc => demoCommands_api c (List.mem_of_mem_take hc))
  have hv2 : (demoCall (demoCommands.drop 3)).Valid := demoCall_valid _
    (fun c hc => demoCommands_api c (List.mem_of_mem_drop hc))
  obtain ⟨E0, h0, g1, g2, g3, _⟩ := demo_commands
  obtain ⟨E1, e1⟩ : ∃ E1, (new 48000 2 4 : Processor Int (Option Int)).processCommands probeOps
      (demoCommands.take 3) = .ok E1 := ⟨_, rfl⟩
  have hs : E1.started = false := by injection e1 with e1; subst e1; rfl
  have e2 : E1.processCommands probeOps (demoCommands.drop 3) = .ok E0 := by
    have : (demoCommands.take 3 ++ demoCommands.drop 3).foldlM (apply probeOps)
      (new 48000 2 4 : Processor Int (Option Int)) = .ok E0 := by
      rw [List.take_append_drop]; exact h0
    rw [List.foldlM_append] at this
    obtain ⟨E2, a1, a2⟩ := bind_ok this
    have : (.ok E2 : Res (Processor Int (Option Int))) = .ok E1 := a1.symm.trans e1
    injection this with this
    subst this
    exact a2
  obtain ⟨o1, r1⟩ := C01_stopped_returns probeOps _ E1 _ hv1 e1 hs
  obtain ⟨⟨o2, E2⟩, r2⟩ := process_ready (by decide : 0 < 4) probeOps_run hv2 g2 e2 (fun _ => g3)
  refine ⟨[demoCall demoCommands], [demoCall (demoCommands.take 3), demoCall (demoCommands.drop 3)],
    E, E2, ok_bind h, (ok_bind r1).trans (ok_bind r2), rfl, rfl, rfl, rfl⟩

/-! ## C05 -/

/-- C05: the node connected to the system output (input) is the one named by the last request, over
the whole history of the engine including the commands of this call. -/
theorem C05_last_endpoint [AddZeroClass S] (ops : NodeOps S P C) (mf mc sr : Nat) (hm : 0 < mf)
    (ks : List (Call S P C)) (hks : ∀ k ∈ ks, k.Valid) (E : Processor S P)
    (hE : calls ops (new sr mc mf) ks = .ok E) (k : Call S P C) (hk : k.Valid) (o : Buf S)
    (E' : Processor S P) (h : E.process ops k.env k.commands k.input k.output = .ok (o, E'))
    (hrun : Command.running (history (ks ++ [k])) = true) :
    ∃ p now before, E'.graph.graph.Shows p ∧ NearestTime (framesRun [] ks) sr now ∧
      RenderedCall ops p mf k.output.frameCount k.output.channelCount mc sr now k.input
        (Command.latest Command.toInput (history (ks ++ [k])))
        (Command.latest Command.toOutput (history (ks ++ [k]))) o.sample? 0 before
        E'.graph.graph.getNode := by
  obtain ⟨V, h1, h2, h3⟩ := calls_looks hm ks E hks hE
  obtain ⟨W, j1, j2, _, _⟩ := process_looks hm h3 h2 hk h
  have hall : ∀ l ∈ ks ++ [k], l.Valid := by
    intro l hl
    rw [List.mem_append, List.mem_singleton] at hl
    rcases hl with hl | rfl
    · exact hks l hl
    · exact hk
  have hE' : calls ops (new sr mc mf) (ks ++ [k]) = .ok E' :=
    (calls_append _ _ _ _).mpr ⟨E, hE, ok_bind h⟩
  obtain ⟨_, i2, i3⟩ := calls_inv hm _ _ _ (einv_new ops mf mc sr) hall hE'
  obtain ⟨c1, _⟩ := calls_clock _ _ E' [] hall rfl rfl (looks_new mf mc sr).time hE'
  obtain ⟨_, _, d3, d4⟩ := calls_clock ks _ E [] hks rfl rfl (looks_new mf mc sr).time hE
  have hfr : ∀ {A B : View P} {cs : List (Command P C)}, Command.Effects ops A cs B →
      B.frames = A.frames := by
    intro A B cs hh
    induction hh with
    | nil => rfl
    | cons e _ ih => rw [ih]; cases e <;> rfl
  cases j1 with
  | stopped _ _ _ _ hs _ =>
    rw [← j2.running, c1, List.nil_append, hrun] at hs
    cases hs
  | running W _ now node _ hc hr hn hren =>
    refine ⟨W.patch, now, W.node, j2.inv.rep.shows, ?_, ?_⟩
    · rw [hfr hc, ← h2.frames, d3] at hn
      simpa [new] using hn
    · have e1 : W.fromSystem = Command.latest Command.toInput (history (ks ++ [k])) := by
        have : _ = W.fromSystem := j2.fromSystem
        rw [← this, i3]
        exact Option.or_none
      have e2 : W.toSystem = Command.latest Command.toOutput (history (ks ++ [k])) := by
        have : _ = W.toSystem := j2.toSystem
        rw [← this, i2]
        exact Option.or_none
      have e3 : node = E'.graph.graph.getNode := funext (fun i => (j2.node i).symm)
      rw [← e1, ← e2, ← e3]
      exact hren

/-- The demo session meets the hypotheses of C05, with both endpoints connected. -/
example : ∃ k o E', k.Valid ∧
    (new 48000 2 4).process probeOps k.env k.commands k.input k.output = .ok (o, E') ∧
    Command.running (history [k]) = true ∧ Command.latest Command.toOutput (history [k]) = some 2 ∧
    Command.latest Command.toInput (history [k]) = some 1 := by
  obtain ⟨o, E, h, _⟩ := demo_calls
  exact ⟨demoCall demoCommands, o, E, demoCall_valid _ demoCommands_api, h, rfl, rfl, rfl⟩

/-! ## C06 -/

/-- C06: a call of `a + b` frames uses the same blocks as a call of `a` frames followed by one of `b`
frames, if `a` is a multiple of the maximum; the times of corresponding blocks differ by at most one
unit of 2^-32 s. -/
theorem C06_split_blocks (mf : Nat) (hm : 0 < mf) (a b q : Nat) (ha : a = q * mf)
    (whole first second : List (Nat × Nat)) (hw : Tiles mf 0 (a + b) whole)
    (h1 : Tiles mf 0 a first) (h2 : Tiles mf 0 b second) (sr position : Nat) (hsr : 0 < sr)
    (hlt : sr < 2 ^ 33) :
    whole = first ++ second.map (fun x => (a + x.1, x.2)) ∧
    ∀ x ∈ second,
      |Timestamp.incrementedBySamples (Timestamp.fromSamples position sr) (a + x.1 : Nat) sr -
        Timestamp.incrementedBySamples (Timestamp.fromSamples ((position + a : Nat) : ℚ) sr) x.1 sr|
        ≤ 1 := by
  refine ⟨tiles_unique _ _ _ _ hw (tiles_append hm first second 0 a b q (by omega) h1 h2), ?_⟩
  intro x _
  unfold Timestamp.incrementedBySamples
  have e1 := Timestamp.fromSamples_error_lt position hsr hlt
  have e2 := Timestamp.fromSamples_error_lt (a + x.1) hsr hlt
  have e3 := Timestamp.fromSamples_error_lt (position + a) hsr hlt
  have e4 := Timestamp.fromSamples_error_lt x.1 hsr hlt
  generalize Timestamp.fromSamples (position : ℚ) sr = p1 at *
  generalize Timestamp.fromSamples ((a + x.1 : Nat) : ℚ) sr = p2 at *
  generalize Timestamp.fromSamples ((position + a : Nat) : ℚ) sr = p3 at *
  generalize Timestamp.fromSamples (x.1 : ℚ) sr = p4 at *
  have l : |((p1 + p2 - (p3 + p4) : Int) : ℚ)| < 2 := by
    push_cast at *
    have f2 : ((a : ℚ) + x.1) / sr * Timestamp.one =
      a / sr * Timestamp.one + x.1 / sr * Timestamp.one := by ring
    have f3 : ((position : ℚ) + a) / sr * Timestamp.one =
      position / sr * Timestamp.one + a / sr * Timestamp.one := by ring
    rw [f2] at e2
    rw [f3] at e3
    rw [abs_lt] at *
    constructor <;> linarith
  have l' : |p1 + p2 - (p3 + p4)| < 2 := by exact_mod_cast l
  omega

example : ∃ whole first second, Tiles 4 0 (8 + 6) whole ∧ Tiles 4 0 8 first ∧ Tiles 4 0 6 second :=
  ⟨[(0, 4), (4, 4), (8, 4), (12, 2)], [(0, 4), (4, 4)], [(0, 4), (4, 2)],
    by simp [Tiles], by simp [Tiles], by simp [Tiles]⟩

/-- C06: if no node looks at the clock, a call split at a block boundary gives the same sound and
leaves the same nodes, whatever chance decides. -/
theorem C06_split_sound [AddZeroClass S] (ops : NodeOps S P C) (mf mc sr : Nat) (hm : 0 < mf)
    (htime : ∀ s b u, ops.run s { b with time := u } = ops.run s b)
    (ks : List (Call S P C)) (hks : ∀ k ∈ ks, k.Valid) (E : Processor S P)
    (hE : calls ops (new sr mc mf) ks = .ok E) (k kA kB : Call S P C) (hk : k.Valid) (hA : kA.Valid)
    (hB : kB.Valid) (hcA : kA.commands = k.commands) (hcB : kB.commands = [])
    (q : Nat) (ha : kA.output.frameCount = q * mf)
    (hlen : k.output.frameCount = kA.output.frameCount + kB.output.frameCount)
    (hchA : kA.output.channelCount = k.output.channelCount)
    (hchB : kB.output.channelCount = k.output.channelCount)
    (hinA : kA.input.channelCount = k.input.channelCount)
    (hinB : kB.input.channelCount = k.input.channelCount)
    (hsA : ∀ c f, f < kA.output.frameCount → kA.input.sample? c f = k.input.sample? c f)
    (hsB : ∀ c f, f < kB.output.frameCount →
      kB.input.sample? c f = k.input.sample? c (kA.output.frameCount + f))
    (o oA oB : Buf S) (E' EA EB : Processor S P)
    (h : E.process ops k.env k.commands k.input k.output = .ok (o, E'))
    (h1 : E.process ops kA.env kA.commands kA.input kA.output = .ok (oA, EA))
    (h2 : EA.process ops kB.env kB.commands kB.input kB.output = .ok (oB, EB)) :
    (∀ c f, c < k.output.channelCount → f < kA.output.frameCount →
      o.sample? c f = oA.sample? c f) ∧
    (∀ c f, c < k.output.channelCount → f < kB.output.frameCount →
      o.sample? c (kA.output.frameCount + f) = oB.sample? c f) ∧
    ∀ i, E'.graph.graph.getNode i = EB.graph.graph.getNode i := by
  obtain ⟨V, _, hV, hEI⟩ := calls_looks hm ks E hks hE
  obtain ⟨E0, o0, p1, p2, p3, p4, p5, p6, p7⟩ := process_parts hk.outWF hk.writable h
  obtain ⟨E0', a0, q1, q2, q3, q4, q5, q6, q7⟩ := process_parts hA.outWF hA.writable h1
  obtain ⟨E1, b0, r1, r2, r3, r4, r5, r6, r7⟩ := process_parts hB.outWF hB.writable h2
  have hE0' : E0' = E0 := by
    rw [hcA, p1] at q1
    injection q1 with q1
    exact q1.symm
  subst hE0'
  have hE1 : E1 = EA := by
    rw [hcB] at r1
    injection r1 with r1
    exact r1.symm
  subst hE1
  obtain ⟨W, e1, e2, e3⟩ := processCommands_looks hm _ _ _ V hEI hV hk.api p1
  have en : o0.frameCount ≤ k.input.frameCount := by rw [← p3.frameCount]; exact hk.enough
  have enA : a0.frameCount ≤ kA.input.frameCount := by rw [← q3.frameCount]; exact hA.enough
  have enB : b0.frameCount ≤ kB.input.frameCount := by rw [← r3.frameCount]; exact hB.enough
  rw [p3.frameCount, p3.channelCount] at p6
  rw [q3.frameCount, q3.channelCount] at q6
  rw [r3.frameCount, r3.channelCount] at r6
  cases hs : E0'.started with
  | false =>
    obtain ⟨rfl, rfl⟩ := render_stopped hs p7
    obtain ⟨rfl, rfl⟩ := render_stopped hs q7
    obtain ⟨rfl, rfl⟩ := render_stopped hs r7
    rw [← p3.frameCount, ← p3.channelCount] at p6
    rw [← q3.frameCount, ← q3.channelCount] at q6
    rw [← r3.frameCount, ← r3.channelCount] at r6
    refine ⟨?_, ?_, fun _ => rfl⟩
    · intro c f hc hf
      rw [p6 c f hc (by omega), q6 c f (by omega) hf]
    · intro c f hc hf
      rw [p6 c _ hc (by omega), r6 c f (by omega) hf]
  | true =>
    obtain ⟨G', l1, rfl⟩ := render_started hs p7
    obtain ⟨GA, l2, rfl⟩ := render_started hs q7
    obtain ⟨GB, l3, rfl⟩ := render_started (E := updatePosition { E0' with graph := GA }
      a0.frameCount) hs r7
    rw [e3.frames, e3.rate] at l1 l2
    simp only [updatePosition, e3.frames, e3.rate] at l3
    obtain ⟨_, _, _, _, _, _, _, _, c9, c10⟩ := renderedLoop hm hk.inWF _ _ _ _ _ _ e3.reach e2.inv
      p4 p5 en (Nat.zero_le _) (fun c f hc _ hf => p6 c f hc hf) l1
    obtain ⟨d1, d2, d3, d4, _, _, _, _, d9, _⟩ := renderedLoop hm hA.inWF _ _ _ _ _ _ e3.reach e2.inv
      q4 q5 enA (Nat.zero_le _) (fun c f hc _ hf => q6 c f hc hf) l2
    obtain ⟨_, _, _, _, _, _, _, _, g9, _⟩ := renderedLoop hm hB.inWF _ _ _ _ _ _ d1 d2
      r4 r5 enB (Nat.zero_le _) (fun c f hc _ hf => r6 c f hc hf) l3
    rw [← p3.frameCount, ← p3.channelCount] at c9
    rw [← q3.frameCount, ← q3.channelCount, hchA] at d9
    rw [← r3.frameCount, ← r3.channelCount, hchB, d3, d4] at g9
    by_cases hpos : 0 < o0.frameCount
    · obtain ⟨⟨order, hord⟩, _⟩ := c10 hpos
      rw [hlen] at c9
      obtain ⟨s1, s2, s3⟩ := rendered_split htime hord hinA hinB hsA hsB d9 g9
        ⟨q, by omega⟩ c9
      exact ⟨fun c f hc hf => s1 c f hc (Nat.zero_le _) hf, s2, fun i => congrFun s3 i⟩
    · have z : k.output.frameCount = 0 := by rw [p3.frameCount]; omega
      refine ⟨fun c f _ hf => by omega, fun c f _ hf => by omega, ?_⟩
      have zA : kA.output.frameCount = 0 := by omega
      have zB : kB.output.frameCount = 0 := by omega
      have n1 := rendered_none c9 z
      have n2 := rendered_none d9 zA
      have n3 := rendered_none g9 zB
      intro i
      exact (congrFun n1 i).trans ((congrFun n3 i).trans (congrFun n2 i)).symm

/-- A call on `n` stereo frames of sevens. -/
def sevensCall (n : Nat) (cs : List (Command (Option Int) Unit × Luck)) :
    Call Int (Option Int) Unit :=
  ⟨cs, .owned (List.replicate (2 * n) 7) 2 n 48000, .owned (List.replicate (2 * n) 0) 2 n 48000,
    fun _ => Env.plain⟩

theorem sevensCall_valid (n : Nat) (cs : List (Command (Option Int) Unit × Luck))
    (h : ∀ c ∈ cs, c.1.Api) : (sevensCall n cs).Valid :=
  ⟨by simp [sevensCall, Buf.WF], by simp [sevensCall, Buf.WF], trivial, le_refl _, h⟩

/-- Ten frames in one call and in calls of eight and two. -/
example : (∀ s b u, probeOps.run s { b with time := u } = probeOps.run s b) ∧
    ∃ o E' oA EA oB EB,
      (new 48000 2 4).process probeOps (sevensCall 10 demoCommands).env demoCommands
        (sevensCall 10 demoCommands).input (sevensCall 10 demoCommands).output = .ok (o, E') ∧
      (new 48000 2 4).process probeOps (sevensCall 8 demoCommands).env demoCommands
        (sevensCall 8 demoCommands).input (sevensCall 8 demoCommands).output = .ok (oA, EA) ∧
      EA.process probeOps (sevensCall 2 []).env []
        (sevensCall 2 []).input (sevensCall 2 []).output = .ok (oB, EB) := by
  have h0 : ∀ c ∈ ([] : List (Command (Option Int) Unit × Luck)), c.1.Api := by
    intro c hc; cases hc
  obtain ⟨o, E', h1, _⟩ := demo_session (sevensCall 10 demoCommands) (sevensCall 2 [])
    (sevensCall_valid _ _ demoCommands_api) (sevensCall_valid _ _ h0) rfl rfl
  obtain ⟨oA, EA, h2, oB, EB, h3⟩ := demo_session (sevensCall 8 demoCommands) (sevensCall 2 [])
    (sevensCall_valid _ _ demoCommands_api) (sevensCall_valid _ _ h0) rfl rfl
  refine ⟨?_, o, E', oA, EA, oB, EB, h1, h2, h3⟩
  intro s b u
  cases s <;> rfl

end Processor
end Rawdio
