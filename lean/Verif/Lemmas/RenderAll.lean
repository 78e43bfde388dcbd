import Verif.Lemmas.RenderLoop

/-! Helper lemmas about rendering all nodes in a processing order: the loop invariant. -/

namespace Rawdio
namespace DspGraph

open Graph

variable {S P C : Type} [Zero S]

/-- What the input buffer of node `i` is filled with before its connections are read: the system
input `x0` if `i` is the system input node, silence otherwise. -/
def baseOf (inp : Option Id) (x0 : Nat → Nat → S) (i : Id) : Nat → Nat → S :=
  if inp = some i then x0 else silence

/-- What is assigned after the nodes `done`. -/
def poolMap (p : Patch Connection) (inp : Option Id) (x0 : Nat → Nat → S) (done : List Id)
    (sig : Signals S) : Endpoint → Option (Nat → Nat → S)
  | ⟨.output, i⟩ => if i ∈ done then some (sig i) else none
  | ⟨.input, i⟩ =>
    if inp = some i ∧ ¬ (i ∈ done ∧ fastSource (p.at' i .incoming) = none) then some x0 else none

/-- Whether the system input buffer is still assigned after the nodes `done`. -/
def pending (p : Patch Connection) (inp : Option Id) (done : List Id) : Nat :=
  match inp with
  | none => 0
  | some i => if i ∈ done ∧ fastSource (p.at' i .incoming) = none then 0 else 1

theorem pending_le (p : Patch Connection) (inp : Option Id) (done : List Id) :
    pending p inp done ≤ 1 := by
  unfold pending
  split
  · exact Nat.zero_le _
  · split_ifs <;> omega

variable [Add S]

/-- Node `i` was run on its input. -/
def Ran (D : Dims) (ops : NodeOps S P C) (frames : Nat) (t : Int) (p : Patch Connection)
    (base : Id → Nat → Nat → S) (before after : Id → Option (Dsp P)) (sig : Signals S) (i : Id) :
    Prop :=
  ∃ d out st, before i = some d ∧
    ops.run d.state ⟨frames, D.sr, t, window d.inputCount frames
      (builtInput frames sig (base i) (p.at' i .incoming)),
      window d.outputCount frames silence⟩ = .ok (out, st) ∧
    after i = some { d with state := st } ∧
    (sig i = fun c f => if c < d.outputCount ∧ f < frames then out c f else 0) ∧
    d.outputCount ≤ D.ch ∧ d.inputCount ≤ D.ch ∧ InputFits D.ch (p.at' i .incoming)

/-- The loop invariant after the nodes `done`. -/
structure LoopInv (D : Dims) (ops : NodeOps S P C) (frames : Nat) (t : Int)
    (g0 : Graph (Dsp P) Connection) (p : Patch Connection) (inp : Option Id) (x0 : Nat → Nat → S)
    (N : Nat) (done : List Id) (sig : Signals S) (pools : Pools S)
    (g : Graph (Dsp P) Connection) : Prop where
  rep : Rep g p
  pi : PI D N (done.length + pending p inp done) pools (poolMap p inp x0 done sig)
  closed : ∀ i ∈ done, ∀ kk ∈ p.at' i .incoming, kk.src ∈ done
  todo : ∀ i, i ∉ done → g.getNode i = g0.getNode i
  ran : ∀ i ∈ done, Ran D ops frames t p (baseOf inp x0) g0.getNode g.getNode sig i

variable {D : Dims} {N : Nat} {ops : NodeOps S P C} {frames : Nat} {t : Int} {env : Env}
  {g0 : Graph (Dsp P) Connection} {p : Patch Connection} {inp : Option Id} {x0 : Nat → Nat → S}

omit [Add S] in
theorem found_input (p : Patch Connection) (inp : Option Id) (x0 : Nat → Nat → S) (done : List Id)
    (sig : Signals S) {i : Id} (hi : i ∉ done) :
    found (poolMap p inp x0 done sig) ⟨.input, i⟩ = baseOf inp x0 i := by
  simp only [found, poolMap, baseOf]
  by_cases h : inp = some i
  · rw [if_pos ⟨h, fun hh => hi hh.1⟩, if_pos h]; rfl
  · rw [if_neg (fun hh => h hh.1), if_neg h]; rfl

omit [Zero S] [Add S] in
theorem stepMap_poolMap (p : Patch Connection) (inp : Option Id) (x0 : Nat → Nat → S)
    (done : List Id) (sig : Signals S) {i : Id} (hi : i ∉ done) (y : Nat → Nat → S) :
    stepMap (poolMap p inp x0 done sig) i (fastSource (p.at' i .incoming)) y =
      poolMap p inp x0 (done ++ [i]) (Function.update sig i y) := by
  have hmem : ∀ j, j ∈ done ++ [i] ↔ j ∈ done ∨ j = i := by
    intro j; rw [List.mem_append, List.mem_singleton]
  have hout : ∀ j, poolMap p inp x0 (done ++ [i]) (Function.update sig i y) ⟨.output, j⟩ =
      if j = i then some y else poolMap p inp x0 done sig ⟨.output, j⟩ := by
    intro j
    simp only [poolMap, hmem]
    by_cases hj : j = i
    · subst hj; simp
    · rw [if_neg hj, Function.update_of_ne hj]
      simp [hj]
  funext e
  obtain ⟨kind, j⟩ := e
  cases kind with
  | output =>
    rw [hout]
    cases hf : fastSource (p.at' i .incoming) with
    | none =>
      simp only [stepMap]
      by_cases hj : j = i
      · subst hj; simp
      · rw [if_neg hj, Function.update_of_ne (by simpa using hj), Function.update_of_ne (by simp)]
    | some s =>
      simp only [stepMap]
      by_cases hj : j = i
      · subst hj; simp
      · rw [if_neg hj, Function.update_of_ne (by simpa using hj)]
  | input =>
    cases hf : fastSource (p.at' i .incoming) with
    | none =>
      simp only [stepMap]
      rw [Function.update_of_ne (by simp)]
      by_cases hj : j = i
      · subst hj
        rw [Function.update_self]
        simp [poolMap, hf]
      · rw [Function.update_of_ne (by simpa using hj)]
        simp [poolMap, hj]
    | some s =>
      simp only [stepMap]
      rw [Function.update_of_ne (by simp)]
      by_cases hj : j = i
      · subst hj
        simp [poolMap, hf]
      · simp [poolMap, hj]

omit [Zero S] [Add S] in
theorem stepCount_poolMap (p : Patch Connection) (inp : Option Id) (x0 : Nat → Nat → S)
    (done : List Id) (sig : Signals S) {i : Id} (hi : i ∉ done) :
    stepCount (poolMap p inp x0 done sig) i (fastSource (p.at' i .incoming))
        (done.length + pending p inp done) =
      (done ++ [i]).length + pending p inp (done ++ [i]) := by
  rw [List.length_append, List.length_singleton]
  cases inp with
  | none =>
    simp [stepCount, poolMap, pending]
  | some j =>
    by_cases hj : j = i
    · subst hj
      by_cases hf : fastSource (p.at' j .incoming) = none
      · simp [stepCount, poolMap, pending, hf, hi]
      · simp [stepCount, pending, hf]
    · simp only [stepCount, poolMap, pending, List.mem_append, List.mem_singleton]
      simp only [Option.some.injEq, hj, false_and, if_false, Option.isSome_none, Bool.false_eq_true,
        and_false, or_false]
      omega

theorem LoopInv.step {done : List Id} {sig : Signals S} {pools pools' : Pools S}
    {g g' : Graph (Dsp P) Connection}
    (h : LoopInv D ops frames t g0 p inp x0 N done sig pools g) (hn0 : 0 < frames)
    (hn : frames ≤ D.fr) {i : Id} (hi : i ∉ done) (hin : i ∈ p.nodes)
    (hsrc : ∀ kk ∈ p.at' i .incoming, kk.src ∈ done)
    (hp : processDsp ops env frames t (pools, g) i = .ok (pools', g')) :
    ∃ y, LoopInv D ops frames t g0 p inp x0 N (done ++ [i]) (Function.update sig i y) pools' g' := by
  obtain ⟨d, hd⟩ := (h.rep.shows.nodes i).mp hin
  obtain ⟨q1, q2, q3, out, st, q4, q5, q6⟩ := processDsp_ok (sig := sig) h.rep.shows hd hn0 hn h.pi
    (by simp only [poolMap]; rw [if_neg hi]) (by
      intro kk hk
      simp only [poolMap]; rw [if_pos (hsrc kk hk)]) hp
  refine ⟨fun c f => if c < d.outputCount ∧ f < frames then out c f else 0, ?_⟩
  rw [found_input p inp x0 done sig hi] at q4
  rw [stepMap_poolMap p inp x0 done sig hi, stepCount_poolMap p inp x0 done sig hi] at q6
  have hself : ∀ kk ∈ p.at' i .incoming, kk.src ≠ i := by
    rintro kk hk rfl; exact hi (hsrc kk hk)
  refine ⟨by rw [q5]; exact rep_setNode h.rep i _, q6, ?_, ?_, ?_⟩
  · intro j hj kk hk
    rw [List.mem_append, List.mem_singleton] at hj ⊢
    rcases hj with hj | rfl
    · exact .inl (h.closed j hj kk hk)
    · exact .inl (hsrc kk hk)
  · intro j hj
    rw [List.mem_append, List.mem_singleton] at hj
    push Not at hj
    rw [q5, getNode_setNode, if_neg hj.2, h.todo j hj.1]
  · intro j hj
    rw [List.mem_append, List.mem_singleton] at hj
    rcases hj with hj | rfl
    · have hji : j ≠ i := by rintro rfl; exact hi hj
      obtain ⟨d', out', st', r1, r2, r3, r4, r5⟩ := h.ran j hj
      refine ⟨d', out', st', r1, ?_, ?_, ?_, r5⟩
      · rw [← r2]
        congr 3
        apply builtInput_congr
        intro kk hk
        rw [Function.update_of_ne]
        rintro hki
        exact hi (hki ▸ h.closed j hj kk hk)
      · rw [q5, getNode_setNode, if_neg hji, r3]
      · rw [Function.update_of_ne hji, r4]
    · refine ⟨d, out, st, ?_, ?_, ?_, ?_, q1, q2, q3⟩
      · rw [← h.todo j hi, hd]
      · rw [← q4]
        congr 3
        apply builtInput_congr
        intro kk hk
        rw [Function.update_of_ne (hself kk hk)]
      · rw [q5, getNode_setNode, if_pos rfl, hd]; rfl
      · rw [Function.update_self]

theorem LoopInv.start {pools : Pools S} (hr : Rep g0 p)
    (hp : PI D N (pending p inp []) pools (poolMap p inp x0 [] (fun _ _ _ => 0))) :
    LoopInv D ops frames t g0 p inp x0 N [] (fun _ _ _ => 0) pools g0 := by
  refine ⟨hr, by rw [List.length_nil, Nat.zero_add]; exact hp, ?_, fun _ _ => rfl, ?_⟩
  · intro i hi; cases hi
  · intro i hi; cases hi

/-- In a valid order the sources of a node come before it. -/
theorem sources_done {E : Type} {p : Patch E} {done rest : List Id} {i : Id}
    (h : p.ValidOrder (done ++ i :: rest)) : ∀ kk ∈ p.at' i .incoming, kk.src ∈ done := by
  intro kk hk
  obtain ⟨hk1, hk2⟩ := mem_at.mp hk
  have hk2 : kk.dst = i := hk2
  obtain ⟨before, between, after, he⟩ := h.sorted kk hk1
  rw [hk2] at he
  have hnd := h.nodup
  have e2 : done ++ i :: rest = (before ++ kk.src :: between) ++ i :: after := by
    rw [he]; simp
  have hi1 : i ∉ done := by
    rw [List.nodup_append] at hnd
    intro hi
    exact hnd.2.2 i hi i (List.mem_cons_self ..) rfl
  have hi2 : i ∉ before ++ kk.src :: between := by
    rw [e2, List.nodup_append] at hnd
    intro hi
    exact hnd.2.2 i hi i (List.mem_cons_self ..) rfl
  have : done = before ++ kk.src :: between := by
    rcases List.append_eq_append_iff.mp e2 with ⟨a, h1, h2⟩ | ⟨a, h1, h2⟩
    · cases a with
      | nil => rw [h1]; simp
      | cons x a =>
        injection h2 with h2 h3
        subst h2
        exact absurd (by rw [h1]; simp) hi2
    · cases a with
      | nil => rw [h1]; simp
      | cons x a =>
        injection h2 with h2 h3
        subst h2
        exact absurd (by rw [h1]; simp) hi1
  rw [this]
  simp

theorem LoopInv.fold (hn0 : 0 < frames) (hn : frames ≤ D.fr) :
    ∀ (rest done : List Id) (sig : Signals S) (pools : Pools S) (g : Graph (Dsp P) Connection),
    p.ValidOrder (done ++ rest) →
    LoopInv D ops frames t g0 p inp x0 N done sig pools g → ∀ {r},
    rest.foldlM (processDsp ops env frames t) (pools, g) = .ok r →
    ∃ sig', LoopInv D ops frames t g0 p inp x0 N (done ++ rest) sig' r.1 r.2 := by
  intro rest
  induction rest with
  | nil =>
    intro done sig pools g _ h r hr
    injection hr with hr
    subst hr
    exact ⟨sig, by rw [List.append_nil]; exact h⟩
  | cons i rest ih =>
    intro done sig pools g hv h r hr
    obtain ⟨⟨pools1, g1⟩, h1, h2⟩ := foldlM_cons_ok hr
    have hi : i ∉ done := by
      have := hv.nodup
      rw [List.nodup_append] at this
      intro hi
      exact this.2.2 i hi i (List.mem_cons_self ..) rfl
    obtain ⟨y, hy⟩ := h.step hn0 hn hi ((hv.complete i).mp (by simp)) (sources_done hv) h1
    have hv' : p.ValidOrder ((done ++ [i]) ++ rest) := by simpa using hv
    obtain ⟨sig', hs⟩ := ih _ _ _ _ hv' hy h2
    exact ⟨sig', by simpa using hs⟩

/-- What every node needs for its run not to fail. -/
def Runs (D : Dims) (ops : NodeOps S P C) (frames : Nat) (t : Int) (before : Id → Option (Dsp P))
    (i : Id) : Prop :=
  ∀ d, before i = some d → d.outputCount ≤ D.ch ∧ d.inputCount ≤ D.ch ∧
    ∀ x : Nat → Nat → S, ∃ r, ops.run d.state ⟨frames, D.sr, t, window d.inputCount frames x,
      window d.outputCount frames silence⟩ = .ok r

theorem LoopInv.fold_progress (hn0 : 0 < frames) (hn : frames ≤ D.fr)
    (hruns : ∀ i ∈ p.nodes, Runs D ops frames t g0.getNode i ∧ InputFits D.ch (p.at' i .incoming)) :
    ∀ (rest done : List Id) (sig : Signals S) (pools : Pools S) (g : Graph (Dsp P) Connection),
    p.ValidOrder (done ++ rest) → (done ++ rest).length + 2 ≤ N →
    LoopInv D ops frames t g0 p inp x0 N done sig pools g →
    ∃ r, rest.foldlM (processDsp ops env frames t) (pools, g) = .ok r := by
  intro rest
  induction rest with
  | nil => intro done sig pools g _ _ h; exact ⟨_, rfl⟩
  | cons i rest ih =>
    intro done sig pools g hv hN h
    have hi : i ∉ done := by
      have := hv.nodup
      rw [List.nodup_append] at this
      intro hi
      exact this.2.2 i hi i (List.mem_cons_self ..) rfl
    have hin : i ∈ p.nodes := (hv.complete i).mp (by simp)
    have hsrc := sources_done hv
    obtain ⟨d, hd⟩ := (h.rep.shows.nodes i).mp hin
    obtain ⟨hr1, hr2⟩ := hruns i hin
    obtain ⟨hoc, hic, hrun⟩ := hr1 d (by rw [← h.todo i hi]; exact hd)
    obtain ⟨⟨pools1, g1⟩, h1⟩ := processDsp_progress (ops := ops) (env := env) (t := t) (sig := sig)
      h.rep.shows hd hn0 hn h.pi
      (by simp only [poolMap]; rw [if_neg hi])
      (by
        have := pending_le p inp done
        rw [List.length_append, List.length_cons] at hN
        omega)
      (by
        intro kk hk
        simp only [poolMap]; rw [if_pos (hsrc kk hk)]) hoc hic hr2 (hrun _)
    obtain ⟨y, hy⟩ := h.step hn0 hn hi hin hsrc h1
    have hv' : p.ValidOrder ((done ++ [i]) ++ rest) := by simpa using hv
    obtain ⟨r, hr⟩ := ih _ _ _ _ hv' (by simpa using hN) hy
    refine ⟨r, ?_⟩
    rw [List.foldlM_cons]
    exact (ok_bind h1).trans hr

end DspGraph
end Rawdio
