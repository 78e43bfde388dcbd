import Verif.Props.Engine
import Verif.Lemmas.EngineGarbage

/-!
# Further properties of the engine (C09, C13 and C16 for whole process calls, C59, C60)
-/

namespace Rawdio
namespace Processor

open DspGraph

variable {S P C : Type}

/-! ## C09 -/

/-- C09: in an engine with any history, a command aborts the audio thread exactly when it makes no
sense for the patch at that moment; every other command succeeds or waits. -/
theorem C09_engine_aborts_iff [AddZeroClass S] (ops : NodeOps S P C) (mf mc sr : Nat) (hm : 0 < mf)
    (hch : ∀ s r, ∃ s', ops.change s r = .ok s') (ks : List (Call S P C)) (hks : ∀ k ∈ ks, k.Valid)
    (E : Processor S P) (hE : calls ops (new sr mc mf) ks = .ok E) :
    ∃ V, View.Session ops mf mc sr ks V ∧ E.graph.graph.Shows V.patch ∧
      ∀ c luck, (E.apply ops (c, luck) = .error .panic ↔ Command.Refused V c) ∧
        E.apply ops (c, luck) ≠ .error .diverge := by
  obtain ⟨V, h1, h2, h3⟩ := calls_looks hm ks E hks hE
  refine ⟨V, h1, h2.inv.rep.shows, fun c luck => ?_⟩
  rcases apply_cases h3 h2 c luck (fun _ _ _ d _ => hch d.state _) with ⟨a, _, b⟩ | ⟨a, _, b⟩ | ⟨a, _, E', b⟩
  · exact ⟨⟨fun _ => a, fun _ => b⟩, by rw [b]; intro h; cases h⟩
  · exact ⟨⟨fun h => by (rw [b] at h; cases h), fun h => absurd h a⟩, by rw [b]; intro h; cases h⟩
  · exact ⟨⟨fun h => by (rw [b] at h; cases h), fun h => absurd h a⟩, by rw [b]; intro h; cases h⟩

/-- C09: dropping a node that is still connected aborts the audio thread. -/
theorem C09_engine_drop_aborts :
    ∃ E : Processor Int (Option Int),
      (new 48000 2 4 : Processor Int (Option Int)).processCommands probeOps demoCommands = .ok E ∧
      E.apply probeOps (.removeDsp 2, .plain) = .error .panic :=
  ⟨_, rfl, rfl⟩

/-- The demo session meets the hypotheses. -/
example : ∃ k E, Call.Valid k ∧ calls probeOps (new 48000 2 4) [k] = .ok E := by
  obtain ⟨o, E, h, _⟩ := demo_calls
  exact ⟨demoCall demoCommands, E, demoCall_valid _ demoCommands_api, ok_bind h⟩

/-! ## C13 -/

/-- C13: a process call of any length succeeds when, with its commands taken, the engine is stopped or
the patch has at most 1022 nodes, can be ordered, and fits the configured channels. -/
theorem C13_engine_call_returns [AddZeroClass S] (ops : NodeOps S P C) (mf mc sr : Nat) (hm : 0 < mf)
    (hops : ∀ s b, ∃ r, ops.run s b = .ok r) (ks : List (Call S P C)) (hks : ∀ k ∈ ks, k.Valid)
    (E : Processor S P) (hE : calls ops (new sr mc mf) ks = .ok E) (k : Call S P C) (hk : k.Valid)
    (E0 : Processor S P) (h : E.processCommands ops k.commands = .ok E0)
    (p : Patch Connection) (hp : E0.graph.graph.Shows p)
    (hG : Command.running (history (ks ++ [k])) = true → p.Acyclic ∧ p.NoParallel ∧
      E0.graph.Fits p mc ∧ p.nodes.length ≤ 1022) :
    ∃ r, E.process ops k.env k.commands k.input k.output = .ok r := by
  obtain ⟨V, h1, h2, h3⟩ := calls_looks hm ks E hks hE
  obtain ⟨W, _, e2, e3⟩ := processCommands_looks hm _ _ _ V h3 h2 hk.api h
  obtain ⟨c1, _⟩ := calls_clock ks _ E [] hks rfl rfl (looks_new mf mc sr).time hE
  obtain ⟨_, _, _, _, f5, _⟩ := processCommands_frame _ _ _ h
  refine process_ready (mc := mc) (sr := sr) hm hops hk e3.frames h ?_
  intro hs
  have hrun : Command.running (history (ks ++ [k])) = true := by
    have : history [k] = k.commands.map Prod.fst := by
      rw [history, List.flatMap_cons, List.flatMap_nil, List.append_nil]
    rw [history_append, this]
    unfold Command.running at c1 ⊢
    rw [f5, c1, List.nil_append] at hs
    rw [Command.latest_append]
    revert hs
    cases Command.latest Command.transport (k.commands.map Prod.fst) with
    | none => exact id
    | some b => exact id
  obtain ⟨g1, g2, g3, g4⟩ := hG hrun
  have hq := e2.inv.rep.shows
  refine ⟨e3.reach, _, e2.inv, TopologicalSort.acyclic_of_shows hp hq g1,
    TopologicalSort.noParallel_of_shows hp hq g2, ⟨g3.1, ?_⟩, ?_⟩
  · intro x hx
    obtain ⟨x', hx', _, _, _, x4⟩ := Graph.shows_conn hq hp hx
    rw [← x4]
    exact g3.2 x' hx'
  · exact (shows_length hp hq e2.inv.rep.nodupP).trans g4

/-! ## C16 -/

/-- C16: a running engine is silent on every channel that the node last connected to the system output
does not produce or that exceeds the configured maximum, and on all channels if there is no such
node. (Elsewhere the output is the signal of that node: `C05_last_endpoint`.) -/
theorem C16_engine_silence [AddZeroClass S] (ops : NodeOps S P C) (mf mc sr : Nat) (hm : 0 < mf)
    (ks : List (Call S P C)) (hks : ∀ k ∈ ks, k.Valid) (E : Processor S P)
    (hE : calls ops (new sr mc mf) ks = .ok E) (k : Call S P C) (hk : k.Valid) (o : Buf S)
    (E' : Processor S P) (h : E.process ops k.env k.commands k.input k.output = .ok (o, E'))
    (hrun : Command.running (history (ks ++ [k])) = true) (c f : Nat)
    (hc : c < k.output.channelCount) (hf : f < k.output.frameCount)
    (hcase : ∀ n d, Command.latest Command.toOutput (history (ks ++ [k])) = some n →
      E'.graph.graph.getNode n = some d → mc ≤ c ∨ d.outputCount ≤ c) :
    o.sample? c f = some 0 := by
  obtain ⟨p, now, before, h1, _, h3⟩ := C05_last_endpoint ops mf mc sr hm ks hks E hE k hk o E' h hrun
  refine rendered_silent h3 c hc ?_ f (Nat.zero_le _) hf
  intro n hn
  by_cases hnn : n ∈ p.nodes
  · obtain ⟨d', hd'⟩ := (h1.nodes n).mp hnn
    rcases hcase n d' hn hd' with hh | hh
    · exact .inr (.inl hh)
    · obtain ⟨d, e1, e2, _⟩ := rendered_counts h3 n d' hd'
      exact .inr (.inr ⟨d, e1, by omega⟩)
  · exact .inl hnn

/-- The demo session with no node connected to the output. -/
example : ∃ k o E', k.Valid ∧
    (new 48000 2 4).process probeOps k.env k.commands k.input k.output = .ok (o, E') ∧
    Command.running (history [k]) = true ∧ Command.latest Command.toOutput (history [k]) = none := by
  have hv : (demoCall [(.start, .plain)]).Valid :=
    demoCall_valid _ (by intro c hc; rw [List.mem_singleton] at hc; subst hc; trivial)
  obtain ⟨⟨o, E'⟩, hr⟩ := C13_engine_call_returns probeOps 4 2 48000 (by decide) probeOps_run []
    (by intro k hk; cases hk) _ rfl _ hv _ rfl Patch.empty
    (Graph.rep_empty (N := Dsp (Option Int)) (E := Connection)).shows
    (fun _ => ⟨TopologicalSort.acyclic_of_valid (order := []) ⟨List.nodup_nil, fun _ => Iff.rfl,
        fun c hc => by cases hc⟩, List.nodup_nil,
      ⟨fun i d hd => by (cases hd), fun k hk => by (cases hk)⟩, Nat.zero_le _⟩)
  exact ⟨_, o, E', hv, hr, rfl, rfl⟩

/-! ## C59 -/

/-- C59: applying a command makes the audio thread wait exactly when it disposes of a node and 512
disposed nodes have not been collected. -/
theorem C59_waits_iff [AddZeroClass S] (ops : NodeOps S P C) (mf mc sr : Nat) (hm : 0 < mf)
    (hch : ∀ s r, ∃ s', ops.change s r = .ok s') (ks : List (Call S P C)) (hks : ∀ k ∈ ks, k.Valid)
    (E : Processor S P) (hE : calls ops (new sr mc mf) ks = .ok E) :
    ∃ V, View.Session ops mf mc sr ks V ∧ E.graph.graph.Shows V.patch ∧
      ∀ c luck, E.apply ops (c, luck) = .error .block ↔
        Command.Disposes V c ∧ 512 ≤ E.graph.garbage - luck.collected := by
  obtain ⟨V, h1, h2, h3⟩ := calls_looks hm ks E hks hE
  refine ⟨V, h1, h2.inv.rep.shows, fun c luck => ?_⟩
  rcases apply_cases h3 h2 c luck (fun _ _ _ d _ => hch d.state _) with ⟨_, a, b⟩ | ⟨_, a, b⟩ | ⟨_, a, E', b⟩
  · exact ⟨fun h => by (rw [b] at h; cases h), fun h => absurd h a⟩
  · exact ⟨fun _ => a, fun _ => b⟩
  · exact ⟨fun h => by (rw [b] at h; cases h), fun h => absurd h a⟩

/-- C59: taking commands never makes the audio thread wait while at most 512 requests to remove a node
have been received, even if the collector never runs. -/
theorem C59_no_wait_partial [AddZeroClass S] (ops : NodeOps S P C) (mf mc sr : Nat) (hm : 0 < mf)
    (hch : ∀ s r, ∃ s', ops.change s r = .ok s') (ks : List (Call S P C)) (hks : ∀ k ∈ ks, k.Valid)
    (E : Processor S P) (hE : calls ops (new sr mc mf) ks = .ok E) (k : Call S P C) (hk : k.Valid)
    (hsize : Command.removals (history (ks ++ [k])) ≤ 512) :
    E.processCommands ops k.commands ≠ .error .block := by
  obtain ⟨V, h1, h2, h3⟩ := calls_looks hm ks E hks hE
  refine processCommands_no_wait hm hch _ E V h3 h2 hk.api ?_
  have a1 := calls_garbage ks _ _ hE
  rw [history_append, removals_append] at hsize
  have : history [k] = k.commands.map Prod.fst := by
    rw [history, List.flatMap_cons, List.flatMap_nil, List.append_nil]
  rw [this] at hsize
  change E.graph.garbage ≤ 0 + _ at a1
  omega

/-- Creating and dropping a node. -/
def churnOnce : List (Command (Option Int) Unit × Luck) :=
  [(.addDsp ⟨1, 0, 2, none⟩, .plain), (.removeDsp 1, .plain)]

/-- Creating and dropping a node `n` times. -/
def churn : Nat → List (Command (Option Int) Unit × Luck)
  | 0 => []
  | n + 1 => churn n ++ churnOnce

/-- A new engine in which `n` disposed nodes wait to be collected. -/
def churned (b : Bool) (n : Nat) : Processor Int (Option Int) :=
  { (new 48000 2 4 : Processor Int (Option Int)) with
    graph := { (new 48000 2 4 : Processor Int (Option Int)).graph with garbage := n, needsSort := b } }

theorem churned_step (b : Bool) (n : Nat) :
    (churned b n).processCommands probeOps churnOnce =
      if n < 512 then .ok (churned true (n + 1)) else .error .block := by
  obtain ⟨E1, h1⟩ : ∃ E1, (churned b n).apply probeOps (.addDsp ⟨1, 0, 2, none⟩, .plain) = .ok E1 :=
    ⟨_, rfl⟩
  refine (ok_bind h1).trans ?_
  injection h1 with h1
  subst h1
  by_cases h : n < 512
  · rw [if_pos h]
    exact ok_bind (ok_bind (if_pos h))
  · rw [if_neg h]
    exact error_bind (error_bind (if_neg h))

theorem churn_ok (n : Nat) (h : n ≤ 512) :
    ∃ b, (new 48000 2 4 : Processor Int (Option Int)).processCommands probeOps (churn n) =
      .ok (churned b n) := by
  induction n with
  | zero => exact ⟨_, rfl⟩
  | succ n ih =>
    obtain ⟨b, ih⟩ := ih (by omega)
    have : (churn n ++ churnOnce).foldlM (apply probeOps)
        (new 48000 2 4 : Processor Int (Option Int)) =
          .ok (churned true (n + 1)) := by
      rw [List.foldlM_append]
      exact (ok_bind ih).trans ((churned_step b n).trans (if_pos (by omega)))
    exact ⟨true, this⟩

/-- C59: a control thread that creates and drops 513 nodes between two runs of the collector makes the
audio thread wait. -/
theorem C59_no_wait_violated :
    (new 48000 2 4 : Processor Int (Option Int)).processCommands probeOps (churn 513) =
      .error .block := by
  have : (churn 512 ++ churnOnce).foldlM (apply probeOps)
      (new 48000 2 4 : Processor Int (Option Int)) = .error .block := by
    obtain ⟨b, hb⟩ := churn_ok 512 (le_refl _)
    rw [List.foldlM_append]
    exact (ok_bind hb).trans ((churned_step b 512).trans (if_neg (by omega)))
  exact this

/-- 512 nodes created and dropped in one call, with the collector asleep. -/
example : (demoCall (churn 512)).Valid ∧ Command.removals (history [demoCall (churn 512)]) ≤ 512 := by
  have h : ∀ n, (∀ c ∈ churn n, c.1.Api) ∧ Command.removals ((churn n).map Prod.fst) ≤ n := by
    intro n
    induction n with
    | zero => exact ⟨by intro c hc; (cases hc), le_refl _⟩
    | succ n ih =>
      constructor
      · intro c hc
        rw [churn, churnOnce, List.mem_append, List.mem_cons, List.mem_singleton] at hc
        rcases hc with hc | rfl | rfl
        · exact ih.1 c hc
        · trivial
        · trivial
      · rw [churn, List.map_append, removals_append]
        exact Nat.add_le_add ih.2 (le_refl 1)
  refine ⟨demoCall_valid _ (h 512).1, ?_⟩
  rw [history, List.flatMap_cons, List.flatMap_nil, List.append_nil]
  exact (h 512).2

/-! ## C60 -/

/-- C60: a running engine with a node of more input or output channels than the configured maximum
aborts in the first call of at least one frame. -/
theorem C60_too_wide [AddZeroClass S] (ops : NodeOps S P C) (mf mc sr : Nat) (hm : 0 < mf)
    (ks : List (Call S P C)) (hks : ∀ k ∈ ks, k.Valid) (E : Processor S P)
    (hE : calls ops (new sr mc mf) ks = .ok E) (k : Call S P C) (hk : k.Valid)
    (E0 : Processor S P) (h : E.processCommands ops k.commands = .ok E0) (hs : E0.started = true)
    (hf : 0 < k.output.frameCount) (i : Id) (d : Dsp P) (hi : E0.graph.graph.getNode i = some d)
    (hd : mc < d.inputCount ∨ mc < d.outputCount) :
    ∃ e, E.process ops k.env k.commands k.input k.output = .error e := by
  cases hp : E.process ops k.env k.commands k.input k.output with
  | error e => exact ⟨e, rfl⟩
  | ok r =>
    exfalso
    obtain ⟨o, E'⟩ := r
    obtain ⟨V, h1, h2, h3⟩ := calls_looks hm ks E hks hE
    obtain ⟨W, _, e2, e3⟩ := processCommands_looks hm _ _ _ V h3 h2 hk.api h
    obtain ⟨E1, o1, p1, p2, p3, p4, p5, p6, p7⟩ := process_parts hk.outWF hk.writable hp
    have : E1 = E0 := by
      have := h.symm.trans p1
      injection this with this
      exact this.symm
    subst this
    obtain ⟨G', l1, rfl⟩ := render_started hs p7
    rw [e3.frames, e3.rate] at l1
    rw [p3.frameCount, p3.channelCount] at p6
    obtain ⟨_, _, _, _, _, _, _, _, _, c10⟩ := renderedLoop hm hk.inWF _ _ _ _ _ _ e3.reach e2.inv
      p4 p5 (by rw [← p3.frameCount]; exact hk.enough) (Nat.zero_le _)
      (fun c f hc _ hf => p6 c f hc hf) l1
    obtain ⟨_, hall⟩ := c10 (by rw [← p3.frameCount]; exact hf)
    have := hall i d hi
    omega

/-- A node of three channels in a stereo engine. -/
example : ∃ E0 : Processor Int (Option Int),
    (new 48000 2 4 : Processor Int (Option Int)).processCommands probeOps
      [(.addDsp ⟨1, 0, 3, none⟩, .plain), (.start, .plain)] = .ok E0 ∧ E0.started = true ∧
    E0.graph.graph.getNode 1 = some ⟨1, 0, 3, none⟩ :=
  ⟨_, rfl, rfl, rfl⟩

end Processor
end Rawdio
