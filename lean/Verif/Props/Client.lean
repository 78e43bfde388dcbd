import Verif.Lemmas.Healthy
import Verif.Props.Engine2

/-!
# Programs that use the engine (C79)
-/

namespace Rawdio
namespace Processor

open DspGraph

variable {S P C : Type}

/-- C79: whatever a program does with the handles it holds, no process call aborts or waits, however its calls are
divided over the process calls. -/
def TypedProgramsRun (S P C : Type) [Zero S] [Add S] : Prop :=
  ∀ (ops : NodeOps S P C) (mf mc sr : Nat), 0 < mf → (∀ s b, ∃ r, ops.run s b = .ok r) →
    (∀ s r, ∃ s', ops.change s r = .ok s') → ∀ (program : List (ApiCall P C)),
    Allowed Holding.Typed Holding.empty program → ∀ (ks : List (Call S P C)), (∀ k ∈ ks, k.Valid) →
    history ks <+: program.map ApiCall.command → ∃ E, calls ops (new sr mc mf) ks = .ok E

/-- C79 for careful programs that drop at most 512 nodes and whose nodes can be rendered: they never make a process
call abort or wait, however the calls of the program are divided over the process calls, and even if the collector
thread never runs.  Missing for the full claim: programs that are not careful, see the violations below. -/
theorem C79_healthy_programs_run_partial [AddZeroClass S] (ops : NodeOps S P C) (mf mc sr : Nat) (hm : 0 < mf)
    (I : Dsp P → Prop) (A : Id → C → Prop) (H : Healthy ops mf sr I A) (program : List (ApiCall P C))
    (hI : ∀ c ∈ program, c.Healthy I A)
    (hp : Allowed (fun h c => h.Typed c ∧ h.Careful mc c) Holding.empty program) (hd : drops program ≤ 512)
    (ks : List (Call S P C)) (hks : ∀ k ∈ ks, k.Valid) (hh : history ks <+: program.map ApiCall.command) :
    ∃ E, calls ops (new sr mc mf) ks = .ok E := by
  obtain ⟨rest, hh⟩ := hh
  obtain ⟨p1, p2, rfl, hp1, _⟩ := List.append_eq_map_iff.mp hh
  rw [drops_append] at hd
  obtain ⟨E, _, h, _⟩ := calls_ok hm H ks p1 _ _ Holding.empty hks hp1.symm (einv_new ..) (looks_new mf mc sr)
    (agrees_empty mc) (fun c hc => hI c (by simp [hc])) (by intro i d h; cases h) ((allowed_append _ _ _).mp hp).1 (by
      have : (new sr mc mf : Processor S P).graph.garbage = 0 := rfl
      omega)
  exact ⟨E, h⟩

/-- C79 for careful programs that drop at most 512 nodes: they never make a process call abort or wait, whatever the
nodes do, however the calls of the program are divided over the process calls, and even if the collector thread
never runs.  Missing for the full claim: programs that are not careful, see the violations below. -/
theorem C79_careful_programs_run_partial [AddZeroClass S] (ops : NodeOps S P C) (mf mc sr : Nat) (hm : 0 < mf)
    (hops : ∀ s b, ∃ r, ops.run s b = .ok r) (hch : ∀ s r, ∃ s', ops.change s r = .ok s')
    (program : List (ApiCall P C))
    (hp : Allowed (fun h c => h.Typed c ∧ h.Careful mc c) Holding.empty program) (hd : drops program ≤ 512)
    (ks : List (Call S P C)) (hks : ∀ k ∈ ks, k.Valid) (hh : history ks <+: program.map ApiCall.command) :
    ∃ E, calls ops (new sr mc mf) ks = .ok E :=
  C79_healthy_programs_run_partial ops mf mc sr hm _ _ (healthy_of_total mf sr hops hch) program
    (calls_healthy_of_total program) hp hd ks hks hh

/-- C79: and when its calls have been received, the engine has exactly the nodes the program holds and exactly the
connections it has made and not undone, oldest first. -/
theorem C79_engine_has_what_is_held [AddZeroClass S] (ops : NodeOps S P C) (mf mc sr : Nat) (hm : 0 < mf)
    (hops : ∀ s b, ∃ r, ops.run s b = .ok r) (hch : ∀ s r, ∃ s', ops.change s r = .ok s')
    (program : List (ApiCall P C))
    (hp : Allowed (fun h c => h.Typed c ∧ h.Careful mc c) Holding.empty program) (hd : drops program ≤ 512)
    (ks : List (Call S P C)) (hks : ∀ k ∈ ks, k.Valid) (hh : history ks = program.map ApiCall.command) :
    ∃ E p, calls ops (new sr mc mf) ks = .ok E ∧ E.graph.graph.Shows p ∧
      p.nodes = (Holding.empty.afterAll program).nodes.map Held.id ∧
      p.conns.map Conn.link = (Holding.empty.afterAll program).links ∧
      ∀ i d, E.graph.graph.getNode i = some d → ∃ x ∈ (Holding.empty.afterAll program).nodes,
        x.id = i ∧ x.inputs = d.inputCount ∧ x.outputs = d.outputCount := by
  obtain ⟨E, V, h, h1, h2⟩ := calls_ok hm (healthy_of_total mf sr hops hch) ks program _ _ Holding.empty hks
    hh (einv_new ..) (looks_new mf mc sr) (agrees_empty mc) (calls_healthy_of_total program) (by intro i d h; cases h) hp (by
      have : (new sr mc mf : Processor S P).graph.garbage = 0 := rfl
      omega)
  refine ⟨E, V.patch, h, h1.inv.rep.shows, h2.nodes, h2.links, ?_⟩
  intro i d hd
  rw [h1.node] at hd
  exact h2.counts i d hd

/-- The handle of a source, of a stereo node and of another, for the examples. -/
def nodeA : GraphNode := ⟨1, 2⟩
@[inherit_doc nodeA] def nodeB : GraphNode := ⟨2, 2⟩

/-- A careful program: two nodes are made, connected and played, then disconnected and dropped. -/
def demoProgram : List (ApiCall (Option Int) Unit) :=
  [.create 1 0 2 none, .create 2 2 2 (some 0), .connectTo nodeA nodeB, .connectToOutput nodeB, .start, .stop,
    .disconnectFromNode nodeA nodeB, .drop nodeA, .drop nodeB]

theorem demoProgram_careful :
    Allowed (fun h c => h.Typed c ∧ h.Careful 2 c) Holding.empty demoProgram := by
  have hA : ∀ ls, Holding.Holds ⟨[⟨1, 0, 2⟩, ⟨2, 2, 2⟩], ls⟩ nodeA := fun ls => ⟨_, .head _, rfl, rfl⟩
  have hB : ∀ ls, Holding.Holds ⟨[⟨1, 0, 2⟩, ⟨2, 2, 2⟩], ls⟩ nodeB := fun ls => ⟨_, .tail _ (.head _), rfl, rfl⟩
  have hac : Holding.Acyclic ⟨[⟨1, 0, 2⟩, ⟨2, 2, 2⟩], [⟨1, 2, 0, 0, 2⟩]⟩ := by
    have hlt : ∀ a b, Relation.TransGen (Holding.Joined ⟨[⟨1, 0, 2⟩, ⟨2, 2, 2⟩], [⟨1, 2, 0, 0, 2⟩]⟩) a b → a < b := by
      intro a b h
      have hj : ∀ a b, Holding.Joined ⟨[⟨1, 0, 2⟩, ⟨2, 2, 2⟩], [⟨1, 2, 0, 0, 2⟩]⟩ a b → a < b := by
        rintro a b ⟨l, hl, rfl, rfl⟩
        simp only [List.mem_singleton] at hl
        subst hl
        decide
      induction h with
      | single h => exact hj _ _ h
      | tail _ h ih => exact ih.trans (hj _ _ h)
    exact fun n h => lt_irrefl _ (hlt n n h)
  refine ⟨⟨?_, ?_⟩, ⟨?_, ?_⟩, ⟨⟨hA _, hB _⟩, ?_, hac⟩, ⟨hB _, trivial⟩, ⟨trivial, trivial⟩, ⟨trivial, trivial⟩,
    ⟨⟨hA _, hB _⟩, trivial⟩, ⟨hA _, ?_⟩, ⟨⟨_, .head _, rfl, rfl⟩, ?_⟩, trivial⟩
  · simp [Holding.Typed, Holding.empty]
  · simp [Holding.Careful, Holding.empty]
  · simp [Holding.Typed, Holding.empty, Holding.after]
  · simp [Holding.Careful, Holding.empty, Holding.after]
  · rintro ⟨l, hl, _⟩
    cases hl
  · simp [Holding.Careful, Holding.empty, Holding.after, nodeA, nodeB]
  · simp [Holding.Careful, Holding.empty, Holding.after, nodeA, nodeB]

/-- The program, received in three process calls of which the second plays. -/
example : ∃ ks : List (Call Int (Option Int) Unit), (∀ k ∈ ks, k.Valid) ∧ drops demoProgram ≤ 512 ∧
    history ks = demoProgram.map ApiCall.command := by
  have hv : ∀ cs : List (ApiCall (Option Int) Unit),
      (demoCall (cs.map fun c => (c.command, .plain))).Valid := by
    intro cs
    refine demoCall_valid _ ?_
    intro c hc
    obtain ⟨d, _, rfl⟩ := List.mem_map.mp hc
    exact command_api d
  refine ⟨[demoCall ((demoProgram.take 2).map fun c => (c.command, .plain)),
    demoCall (((demoProgram.drop 2).take 3).map fun c => (c.command, .plain)),
    demoCall ((demoProgram.drop 5).map fun c => (c.command, .plain))], ?_, by decide, rfl⟩
  intro k hk
  simp only [List.mem_cons, List.not_mem_nil, or_false] at hk
  rcases hk with rfl | rfl | rfl <;> exact hv _

/-- One process call of ten frames that receives a whole program. -/
def demoRun (program : List (ApiCall (Option Int) Unit)) : Res (Processor Int (Option Int)) :=
  calls probeOps (new 48000 2 4) [demoCall (program.map fun c => (c.command, .plain))]

/-- A program that drops a node that is still connected. -/
def hastyProgram : List (ApiCall (Option Int) Unit) :=
  [.create 1 0 2 none, .create 2 2 2 (some 0), .connectTo nodeA nodeB, .drop nodeA]

/-- C79 is violated: dropping a node that is still connected aborts. -/
theorem C79_drop_connected_violated : demoRun hastyProgram = .error .panic := rfl

/-- C79 is violated: connecting a node to itself aborts a running engine. -/
theorem C79_loop_violated :
    demoRun [.create 2 2 2 (some 0), .connectTo nodeB nodeB, .start] = .error .panic := rfl

/-- C79 is violated: connecting two nodes twice aborts a running engine. -/
theorem C79_twice_violated :
    demoRun [.create 1 0 2 none, .create 2 2 2 (some 0), .connectTo nodeA nodeB, .connectTo nodeA nodeB, .start] =
      .error .panic := rfl

/-- C79 is violated: a node with more channels than the engine aborts a running engine. -/
theorem C79_wide_violated : demoRun [.create 1 0 3 none, .start] = .error .panic := rfl

/-- C79 is violated. -/
theorem C79_typed_programs_violated : ¬ TypedProgramsRun Int (Option Int) Unit := by
  intro h
  obtain ⟨E, hE⟩ := h probeOps 4 2 48000 (by decide) probeOps_run (fun s r => ⟨_, rfl⟩) hastyProgram
    ⟨by simp [Holding.Typed, Holding.empty], by simp [Holding.Typed, Holding.empty, Holding.after],
      ⟨⟨_, .head _, rfl, rfl⟩, ⟨_, .tail _ (.head _), rfl, rfl⟩⟩, ⟨_, .head _, rfl, rfl⟩, trivial⟩
    [demoCall (hastyProgram.map fun c => (c.command, .plain))]
    (by
      intro k hk
      rw [List.mem_singleton] at hk
      subst hk
      refine demoCall_valid _ ?_
      intro c hc
      obtain ⟨d, _, rfl⟩ := List.mem_map.mp hc
      exact command_api d)
    ⟨[], rfl⟩
  cases C79_drop_connected_violated.symm.trans hE

end Processor
end Rawdio
