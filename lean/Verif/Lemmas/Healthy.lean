import Verif.Spec.Healthy
import Verif.Lemmas.Client

/-! Helper lemmas: engines whose nodes can be rendered. -/

namespace Rawdio

open DspGraph

variable {S P C : Type}

theorem healthy_of_total [Zero S] {ops : NodeOps S P C} (full sr : Nat) (hops : ∀ s b, ∃ r, ops.run s b = .ok r)
    (hch : ∀ s r, ∃ s', ops.change s r = .ok s') : Healthy ops full sr (fun _ => True) (fun _ _ => True) where
  run := fun d n t x _ _ _ => by
    obtain ⟨r, hr⟩ := hops d.state ⟨n, sr, t, window d.inputCount n x, window d.outputCount n silence⟩
    exact ⟨r.1, r.2, hr⟩
  keeps := fun _ _ _ _ _ _ _ _ _ _ => trivial
  change := fun d c _ _ => by
    obtain ⟨s, hs⟩ := hch d.state c
    exact ⟨s, hs, trivial⟩

theorem calls_healthy_of_total (program : List (ApiCall P C)) :
    ∀ c ∈ program, c.Healthy (fun _ => True) (fun _ _ => True) := by
  intro c _
  cases c <;> trivial

theorem healthy_change [Zero S] {ops : NodeOps S P C} {full sr : Nat} {I : Dsp P → Prop} {A : Id → C → Prop}
    (H : Healthy ops full sr I A) {c : ApiCall P C} (hc : c.Healthy I A) {V : View P}
    (hV : ∀ i d, V.node i = some d → d.id = i ∧ I d) (i : Id) (r : C) (h : c.command = .change i r) (d : Dsp P)
    (hd : V.node i = some d) : ∃ s, ops.change d.state r = .ok s := by
  cases c <;> simp only [ApiCall.command, Command.change.injEq, reduceCtorEq] at h
  obtain ⟨rfl, rfl⟩ := h
  obtain ⟨h1, h2⟩ := hV _ d hd
  obtain ⟨s, hs, _⟩ := H.change d _ h2 (by rw [h1]; exact hc)
  exact ⟨s, hs⟩

theorem effect_healthy [Zero S] {ops : NodeOps S P C} {full sr : Nat} {I : Dsp P → Prop} {A : Id → C → Prop}
    (H : Healthy ops full sr I A) {c : ApiCall P C} (hc : c.Healthy I A) {V W : View P}
    (hV : ∀ i d, V.node i = some d → d.id = i ∧ I d) (h : Command.Effect ops V c.command W) :
    ∀ i d, W.node i = some d → d.id = i ∧ I d := by
  generalize hk : c.command = k at h
  cases h with
  | start => exact hV
  | stop => exact hV
  | addDsp d q _ =>
    intro i e he
    simp only at he
    split at he
    · cases he
      cases c <;> simp only [ApiCall.command, Command.addDsp.injEq, reduceCtorEq] at hk
      subst hk
      exact ⟨by simp_all, hc⟩
    · exact hV i e he
  | removeDsp j q _ =>
    intro i e he
    simp only at he
    split at he
    · cases he
    · exact hV i e he
  | change j r d s h1 h2 =>
    intro i e he
    simp only at he
    split at he
    · cases he
      cases c <;> simp only [ApiCall.command, Command.change.injEq, reduceCtorEq] at hk
      obtain ⟨rfl, rfl⟩ := hk
      obtain ⟨k1, k2⟩ := hV _ d h1
      obtain ⟨s', h3, h4⟩ := H.change d _ k2 (by rw [k1]; exact hc)
      rw [h2] at h3
      cases h3
      exact ⟨by simp_all, h4⟩
    · exact hV i e he
  | changeAbsent => exact hV
  | addConnection => exact hV
  | removeConnection => exact hV
  | connectToOutput => exact hV
  | connectToInput => exact hV

theorem effects_healthy [Zero S] {ops : NodeOps S P C} {full sr : Nat} {I : Dsp P → Prop} {A : Id → C → Prop}
    (H : Healthy ops full sr I A) (program : List (ApiCall P C)) : ∀ {V W : View P}, (∀ c ∈ program, c.Healthy I A) →
    (∀ i d, V.node i = some d → d.id = i ∧ I d) → Command.Effects ops V (program.map ApiCall.command) W →
    ∀ i d, W.node i = some d → d.id = i ∧ I d := by
  induction program with
  | nil => intro V W _ hV h; cases h; exact hV
  | cons c program ih =>
    intro V W hc hV h
    cases h with
    | cons h1 h2 => exact ih (fun x hx => hc x (by simp [hx])) (effect_healthy H (hc c (by simp)) hV h1) h2

theorem rendered_healthy [Zero S] [Add S] {ops : NodeOps S P C} {I : Dsp P → Prop} {A : Id → C → Prop}
    {p : Patch Connection} {full total channels mc sr : Nat} (H : Healthy ops full sr I A) (hm : 0 < full) {now : Int}
    {input : Buf S} {ff tt : Option Id} {out : Nat → Nat → Option S} {offset : Nat}
    {before after : Id → Option (Dsp P)}
    (h : RenderedCall ops p full total channels mc sr now input ff tt out offset before after) :
    (∀ i d, before i = some d → d.id = i ∧ I d) → ∀ i d, after i = some d → d.id = i ∧ I d := by
  induction h with
  | done _ states _ => exact id
  | block offset frames before mid after w sig h1 h2 _ _ hr _ _ ih =>
    intro hb
    refine ih fun i d hd => ?_
    by_cases hn : i ∈ p.nodes
    · obtain ⟨e, o, st, r1, r2, r3, _⟩ := hr.run i hn
      rw [r3] at hd
      cases hd
      exact ⟨(hb i e r1).1, H.keeps e frames _ _ _ _ (hb i e r1).2 (by omega) (by omega) r2⟩
    · rw [hr.gone i hn] at hd; cases hd

namespace Processor

/-- A call on a graph that can be rendered. -/
theorem process_healthy [Zero S] [Add S] {ops : NodeOps S P C} {mf mc sr : Nat} (hm : 0 < mf)
    {I : Dsp P → Prop} {A : Id → C → Prop} (H : Healthy ops mf sr I A) {E E0 : Processor S P} {k : Call S P C}
    (hk : k.Valid) (hf : E0.maxFrames = mf) (h : E.processCommands ops k.commands = .ok E0)
    (hG : E0.started = true → Ready ops mf mc sr E0.graph ∧ ∀ i d, E0.graph.graph.getNode i = some d → I d) :
    ∃ r, E.process ops k.env k.commands k.input k.output = .ok r := by
  obtain ⟨o0, e1, e2, e3, e4, e5⟩ := Buf.C36_clear k.output hk.outWF hk.writable
  have key : ∃ r, E0.render ops k.env k.input o0 = .ok r := by
    unfold render
    cases hs : E0.started with
    | false => exact ⟨_, if_neg (by simp)⟩
    | true =>
      obtain ⟨r, hr⟩ := processLoop_progress
        (I := fun G => Ready ops mf mc sr G ∧ ∀ i d, G.graph.getNode i = some d → I d)
        (run := runGraph ops k.env)
        (by
          intro offset G input p r t o' G' hG hv h
          obtain ⟨h1, h2⟩ := ready_writesSlice ops k.env hm offset G input p r t o' G' hG.1 hv h
          refine ⟨⟨h1, ?_⟩, h2⟩
          obtain ⟨⟨hR, q, hq, _⟩, hI⟩ := hG
          obtain ⟨sig, hd, _⟩ := process_writesSlice (D := ⟨mc, mf, sr⟩) hm hq hv h
          intro i d hid
          have hi : i ∈ q.nodes := (hd.inv.rep.shows.nodes i).mpr ⟨d, hid⟩
          obtain ⟨d', y, st, r1, r2, r3, _⟩ := hd.ran i hi
          rw [hid] at r3
          injection r3 with r3
          rw [r3]
          refine H.keeps d' _ _ _ y st (hI i d' r1) ?_ ?_ r2
          · exact Nat.lt_min.mpr ⟨hv.nonempty, hm⟩
          · exact Nat.min_le_right _ _)
        (by
          intro offset G input output t hG hv
          obtain ⟨⟨_, q, hq, hac, hnp, hfit, hsize⟩, hI⟩ := hG
          refine process_progress hq hv.inWF hv.outWF hv.writable hv.nonempty hm hv.enough hac hnp ?_ ?_
          · change q.nodes.length + 2 ≤ 1024
            omega
          · intro i hi
            refine ⟨?_, inputFits_of_fits hfit i⟩
            intro d hd
            refine ⟨(hfit.1 i d hd).2, (hfit.1 i d hd).1, fun x => ?_⟩
            obtain ⟨y, s, hys⟩ := H.run d (min output.frameCount mf) t x (hI i d hd)
              (Nat.lt_min.mpr ⟨hv.nonempty, hm⟩) (Nat.min_le_right _ _)
            exact ⟨_, hys⟩) (sr := E0.sampleRate) hm
        (now := E0.currentTime) hk.inWF (o0.frameCount + 1) 0 E0.graph o0 (hG hs)
        e3 e4 (by rw [← e2.frameCount]; exact hk.enough) (Nat.zero_le _) (by omega)
      rw [← hf] at hr
      exact ⟨_, (if_pos rfl).trans (ok_bind hr)⟩
  obtain ⟨r, hr⟩ := key
  exact ⟨r, (ok_bind e1).trans ((ok_bind h).trans hr)⟩

/-- The commands of a careful program succeed. -/
theorem commands_ok [AddZeroClass S] {ops : NodeOps S P C} {mf mc sr : Nat} (hm : 0 < mf)
    {I : Dsp P → Prop} {A : Id → C → Prop} (H : Healthy ops mf sr I A) : ∀ (program : List (ApiCall P C)) (cs : List (Command P C × Luck))
    (E : Processor S P) (V : View P) (h : Holding), cs.map Prod.fst = program.map ApiCall.command →
    EInv ops mf mc sr E → Looks E mf mc sr V → Agrees mc h V → (∀ c ∈ program, c.Healthy I A) →
    (∀ i d, V.node i = some d → d.id = i ∧ I d) →
    Allowed (fun h c => h.Typed c ∧ h.Careful mc c) h program → E.graph.garbage + drops program ≤ 512 →
    ∃ E', E.processCommands ops cs = .ok E' := by
  intro program
  induction program with
  | nil =>
    intro cs E V h hcs _ _ _ _ _ _ _
    have : cs = [] := by simpa using hcs
    subst this
    exact ⟨E, rfl⟩
  | cons c program ih =>
    intro cs E V h hcs hE hV a hI hV' hp hg
    cases cs with
    | nil => simp at hcs
    | cons k cs =>
      simp only [List.map_cons, List.cons.injEq] at hcs
      obtain ⟨hk, hcs⟩ := hcs
      obtain ⟨k, luck⟩ := k
      simp only at hk
      subst hk
      have hd : drops (c :: program) = drops [c] + drops program := drops_append [c] program
      rcases apply_cases hE hV c.command luck (healthy_change H (hI c (by simp)) hV') with ⟨r, _, _⟩ | ⟨_, ⟨r, hw⟩, _⟩ | ⟨_, _, E1, h1⟩
      · exact absurd r (not_refused a hp.1.1 hp.1.2)
      · exfalso
        have : drops [c] = 1 := by
          cases c <;> first | exact r.elim | rfl
        omega
      · obtain ⟨W, e1, e2⟩ := apply_looks hE hV (command_api c) h1
        have hg1 := apply_garbage h1
        have : Command.removals [c.command] = drops [c] := drops_removals [c]
        simp only [this] at hg1
        obtain ⟨E', h2⟩ := ih cs E1 W (h.after c) hcs (apply_inv hm hE (command_api c) h1) e2
          (effect_agrees a hp.1.1 hp.1.2 e1) (fun x hx => hI x (by simp [hx]))
          (effect_healthy H (hI c (by simp)) hV' e1) hp.2 (by omega)
        exact ⟨E', (ok_bind h1).trans h2⟩

theorem calls_ok [AddZeroClass S] {ops : NodeOps S P C} {mf mc sr : Nat} (hm : 0 < mf)
    {I : Dsp P → Prop} {A : Id → C → Prop} (H : Healthy ops mf sr I A) :
    ∀ (ks : List (Call S P C)) (program : List (ApiCall P C)) (E : Processor S P) (V : View P) (h : Holding),
    (∀ k ∈ ks, k.Valid) → history ks = program.map ApiCall.command → EInv ops mf mc sr E → Looks E mf mc sr V →
    Agrees mc h V → (∀ c ∈ program, c.Healthy I A) → (∀ i d, V.node i = some d → d.id = i ∧ I d) →
    Allowed (fun h c => h.Typed c ∧ h.Careful mc c) h program →
    E.graph.garbage + drops program ≤ 512 →
    ∃ E' V', calls ops E ks = .ok E' ∧ Looks E' mf mc sr V' ∧ Agrees mc (h.afterAll program) V' := by
  intro ks
  induction ks with
  | nil =>
    intro program E V h _ hh _ hV a _ _ _ _
    have : program = [] := by simpa [history] using hh
    subst this
    exact ⟨E, V, rfl, hV, a⟩
  | cons k ks ih =>
    intro program E V h hks hh hE hV a hI hV' hp hg
    have hhist : history (k :: ks) = k.commands.map Prod.fst ++ history ks := rfl
    rw [hhist] at hh
    obtain ⟨p1, p2, rfl, hp1, hp2⟩ := List.append_eq_map_iff.mp hh
    rw [drops_append] at hg
    obtain ⟨ha1, ha2⟩ := (allowed_append _ _ _).mp hp
    obtain ⟨E0, h0⟩ := commands_ok hm H p1 k.commands E V h hp1.symm hE hV a
      (fun x hx => hI x (by simp [hx])) hV' ha1 (by omega)
    have hk := hks k (by simp)
    obtain ⟨W, w1, w2, w3⟩ := processCommands_looks hm _ _ _ V hE hV hk.api h0
    rw [← hp1] at w1
    have aW := effects_agrees p1 a ha1 w1
    have hW := effects_healthy H p1 (fun x hx => hI x (by simp [hx])) hV' w1
    obtain ⟨⟨o, E1⟩, hr⟩ := process_healthy (mc := mc) (sr := sr) hm H hk w3.frames h0 (by
      intro _
      refine ⟨?_, fun i d hd => (hW i d (by rw [← w2.node]; exact hd)).2⟩
      refine ⟨w3.reach, _, w2.inv, aW.acyclicPatch, aW.noParallel, ⟨?_, ?_⟩, ?_⟩
      · intro i d hd
        rw [w2.node] at hd
        obtain ⟨x, hx, _, e1, e2⟩ := aW.counts i d hd
        rw [← e1, ← e2]
        exact aW.fits x hx
      · intro c hc
        have hm : c.link ∈ (h.afterAll p1).links := by rw [← aW.links]; exact List.mem_map_of_mem hc
        exact aW.narrow _ hm
      · rw [aW.nodes, List.length_map]
        exact aW.small)
    obtain ⟨X, x1, x2, x3, _⟩ := process_looks hm hE hV hk hr
    have aX : Agrees mc (h.afterAll p1) X := by
      cases x1 with
      | stopped _ _ _ e1 _ _ =>
        rw [← hp1] at e1
        exact effects_agrees p1 a ha1 e1
      | running _ _ _ _ _ e1 _ _ e4 =>
        rw [← hp1] at e1
        have b := effects_agrees p1 a ha1 e1
        refine ⟨b.nodes, b.links, ?_, b.unique, b.small, b.fits, b.narrow, b.single, b.acyclic⟩
        intro i d hd
        obtain ⟨d', e5, e6, e7⟩ := rendered_counts e4 i d hd
        obtain ⟨x, hx, f1, f2, f3⟩ := b.counts i d' e5
        exact ⟨x, hx, f1, f2.trans e7, f3.trans e6⟩
    have hX : ∀ i d, X.node i = some d → d.id = i ∧ I d := by
      cases x1 with
      | stopped _ _ _ e1 _ _ =>
        rw [← hp1] at e1
        exact effects_healthy H p1 (fun x hx => hI x (by simp [hx])) hV' e1
      | running _ _ _ _ _ e1 _ _ e4 =>
        rw [← hp1] at e1
        exact rendered_healthy H hm e4 (effects_healthy H p1 (fun x hx => hI x (by simp [hx])) hV' e1)
    have hgarbage : E1.graph.garbage ≤ E.graph.garbage + drops p1 := by
      have c1 := processCommands_garbage _ _ _ h0
      rw [← hp1, drops_removals] at c1
      obtain ⟨E0', o0, q1, _, _, _, _, _, q7⟩ := process_parts hk.outWF hk.writable hr
      rw [h0] at q1
      cases q1
      rw [render_garbage q7]
      exact c1
    obtain ⟨E', V', he, v1, v2⟩ := ih p2 E1 X _ (fun l hl => hks l (by simp [hl])) hp2.symm x3 x2 aX
      (fun x hx => hI x (by simp [hx])) hX ha2 (by omega)
    refine ⟨E', V', (ok_bind hr).trans he, v1, ?_⟩
    unfold Holding.afterAll at v2 ⊢
    rw [List.foldl_append]
    exact v2

end Processor
end Rawdio
