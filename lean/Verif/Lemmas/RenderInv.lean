import Verif.Lemmas.RenderProcess
import Verif.Lemmas.GraphRun

/-! Helper lemmas: the invariant of reachable graphs, the exact input of each node, uniqueness of a
rendered block. -/

namespace Rawdio
namespace DspGraph

open Graph

variable {S P C : Type}

theorem inv_new [Zero S] (maxFrames maxChannels sampleRate : Nat) :
    Inv ⟨maxChannels, maxFrames, sampleRate⟩
      (new maxFrames maxChannels sampleRate : DspGraph S P) Patch.empty := by
  refine ⟨rep_empty, ?_, ⟨rfl, rfl⟩, rfl, rfl, ?_, ?_⟩
  · intro _
    refine ⟨⟨List.nodup_nil, fun _ => Iff.rfl, ?_⟩, List.nodup_nil⟩
    intro c hc
    cases hc
  · intro ep h; cases h
  · intro ep h; cases h

theorem reachable_inv [Zero S] [Add S] {ops : NodeOps S P C} {maxFrames maxChannels sampleRate : Nat}
    (hm : 0 < maxFrames) {G : DspGraph S P}
    (h : Reachable ops maxFrames maxChannels sampleRate G) :
    ∃ p, Inv ⟨maxChannels, maxFrames, sampleRate⟩ G p := by
  induction h with
  | new => exact ⟨_, inv_new ..⟩
  | add d _ hg ih =>
    obtain ⟨p, hp⟩ := ih
    obtain ⟨g, h1, h2⟩ := bind_ok hg
    injection h2 with h2
    subst h2
    obtain ⟨p', _, hr⟩ := exec_step hp.rep .id (.addNode d.id d) (by intro _ _ _ _ h; cases h) h1
    exact ⟨p', hr, (by intro h; cases h), hp.free, hp.channels, hp.frames, hp.inKind, hp.outKind⟩
  | remove i _ hg ih =>
    obtain ⟨p, hp⟩ := ih
    obtain ⟨r, h1, h2⟩ := bind_ok hg
    obtain ⟨p', _, hr⟩ := exec_step (g' := r.1) hp.rep .id (.removeNode i)
      (by intro _ _ _ _ h; cases h) (by rw [exec]; exact ok_bind h1)
    split at h2
    · injection h2 with h2
      subst h2
      exact ⟨p', hr, (by intro h; cases h), hp.free, hp.channels, hp.frames, hp.inKind, hp.outKind⟩
    · split_ifs at h2
      injection h2 with h2
      subst h2
      exact ⟨p', hr, (by intro h; cases h), hp.free, hp.channels, hp.frames, hp.inKind, hp.outKind⟩
  | change i c _ hg ih =>
    obtain ⟨p, hp⟩ := ih
    unfold changeParameter at hg
    split at hg
    · injection hg with hg
      subst hg
      exact ⟨p, hp⟩
    · obtain ⟨st, _, h2⟩ := bind_ok hg
      injection h2 with h2
      subst h2
      exact ⟨p, rep_setNode hp.rep _ _, hp.sorted, hp.free, hp.channels, hp.frames, hp.inKind,
        hp.outKind⟩
  | connect k c _ hk hg ih =>
    obtain ⟨p, hp⟩ := ih
    obtain ⟨g, h1, h2⟩ := bind_ok hg
    injection h2 with h2
    subst h2
    obtain ⟨p', _, hr⟩ := exec_step hp.rep .id (.connect k c.source.dsp c.destination.dsp c) (by
      intro k' a b d h x hx hxk
      injection h with h
      subst h
      obtain ⟨e, he, _⟩ := hp.rep.shows.ends x hx
      rw [hxk, hk] at he
      cases he) h1
    exact ⟨p', hr, (by intro h; cases h), hp.free, hp.channels, hp.frames, hp.inKind, hp.outKind⟩
  | disconnect σ c _ ih =>
    obtain ⟨p, hp⟩ := ih
    obtain ⟨p', _, hr⟩ := exec_step hp.rep σ (.disconnect c.source.dsp c.destination.dsp)
      (by intro _ _ _ _ h; cases h) rfl
    exact ⟨p', hr, (by intro h; cases h), hp.free, hp.channels, hp.frames, hp.inKind, hp.outKind⟩
  | toOutput i _ ih =>
    obtain ⟨p, hp⟩ := ih
    exact ⟨p, hp.rep, hp.sorted, hp.free, hp.channels, hp.frames, hp.inKind,
      by intro ep h; injection h with h; subst h; rfl⟩
  | toInput i _ ih =>
    obtain ⟨p, hp⟩ := ih
    exact ⟨p, hp.rep, hp.sorted, hp.free, hp.channels, hp.frames,
      (by intro ep h; injection h with h; subst h; rfl), hp.outKind⟩
  | process env input output output' t _ hv hg ih =>
    obtain ⟨p, hp⟩ := ih
    obtain ⟨sig, hd⟩ := process_ok hp hv.inWF hv.outWF hv.writable hv.nonempty hm hv.enough hg
    exact ⟨p, hd.inv⟩
  | collect n _ _ ih =>
    obtain ⟨p, hp⟩ := ih
    exact ⟨p, hp.rep, hp.sorted, hp.free, hp.channels, hp.frames, hp.inKind, hp.outKind⟩

/-- Two patches shown by the same graph list the same connections at each node. -/
theorem at_of_shows {N E : Type} {g : Graph N E} {p q : Patch E} (hp : g.Shows p) (hq : g.Shows q)
    {n : Id} (hn : n ∈ p.nodes) (dir : Direction) : p.at' n dir = q.at' n dir := by
  have hn' : n ∈ q.nodes := (hq.nodes n).mpr ((hp.nodes n).mp hn)
  have h1 := hp.edges n hn dir
  rw [hq.edges n hn' dir] at h1
  injection h1 with h1
  have key : ∀ (l l' : List (Conn E)), (∀ c ∈ l, c ∈ p.conns) → (∀ c ∈ l', c ∈ q.conns) →
      l'.map Conn.id = l.map Conn.id → l = l' := by
    intro l
    induction l with
    | nil => intro l' _ _ h; simpa using h.symm
    | cons c l ih =>
      intro l' h1 h2 h
      cases l' with
      | nil => cases h
      | cons c' l' =>
        rw [List.map_cons, List.map_cons] at h
        injection h with ha hb
        obtain ⟨c2, hc2, e1, e2, e3, e4⟩ := shows_conn hp hq (h1 c (List.mem_cons_self ..))
        have : c2 = c' := List.inj_on_of_nodup_map hq.ids hc2 (h2 c' (List.mem_cons_self ..))
          (by rw [e1, ha])
        subst this
        have hcc : c = c2 := by
          cases c; cases c2
          simp only at e1 e2 e3 e4
          subst e1 e2 e3 e4
          rfl
        rw [hcc, ih l' (fun c hc => h1 c (List.mem_cons_of_mem _ hc))
          (fun c hc => h2 c (List.mem_cons_of_mem _ hc)) hb]
  exact key _ _ (fun c hc => (mem_at.mp hc).1) (fun c hc => (mem_at.mp hc).1) h1

section inputs

variable [AddZeroClass S]

theorem mixAll_mix {n : Nat} {sig : Signals S} {c f : Nat} (hf : f < n) :
    ∀ (ks : List (Conn Connection)) (x : Nat → Nat → S),
    mixAll n sig .mix ks x c f =
      ((ks.filter (fun k => k.data.Feeds c)).map
        (fun k => sig k.src (k.data.sourceChannel + (c - k.data.destinationChannel)) f)).foldl
        (· + ·) (x c f) := by
  intro ks
  induction ks with
  | nil => intro x; rfl
  | cons k ks ih =>
    intro x
    rw [mixAll, ih, List.filter_cons]
    by_cases hk : k.data.Feeds c
    · rw [if_pos (by simpa using hk), List.map_cons, List.foldl_cons]
      congr 1
      simp only [mixed]
      rw [if_pos ⟨hk.1, hk.2, hf⟩]
    · rw [if_neg (by simpa using hk)]
      congr 1
      simp only [mixed]
      rw [if_neg (fun h => hk ⟨h.1, h.2.1⟩)]

theorem mixAll_overwrite {n : Nat} {sig : Signals S} {c f : Nat} (hf : f < n)
    (k : Conn Connection) (ks : List (Conn Connection)) (x : Nat → Nat → S) :
    mixAll n sig .overwrite (k :: ks) x c f =
      (((k :: ks).filter (fun k => k.data.Feeds c)).map
        (fun k => sig k.src (k.data.sourceChannel + (c - k.data.destinationChannel)) f)).foldl
        (· + ·) (if k.data.Feeds c then 0 else x c f) := by
  rw [mixAll, mixAll_mix hf, List.filter_cons]
  by_cases hk : k.data.Feeds c
  · rw [if_pos hk, if_pos (by simpa using hk), List.map_cons, List.foldl_cons]
    congr 1
    simp only [mixed]
    rw [if_pos ⟨hk.1, hk.2, hf⟩, zero_add]
  · rw [if_neg hk, if_neg (by simpa using hk)]
    congr 1
    simp only [mixed]
    rw [if_neg (fun h => hk ⟨h.1, h.2.1⟩)]

theorem builtInput_eq {n : Nat} {sig : Signals S} {system : Id → Nat → Nat → S}
    {p : Patch Connection} {i : Id} {c f : Nat} (hf : f < n) :
    builtInput n sig (system i) (p.at' i .incoming) c f = p.received system sig i c f := by
  unfold Patch.received Patch.arriving builtInput
  cases hks : p.at' i .incoming with
  | nil => rfl
  | cons k ks =>
    by_cases hz : ks = [] ∧ k.data.Plain
    · obtain ⟨rfl, hz⟩ := hz
      have : fastSource [k] = some k.src := if_pos hz
      rw [this]
      exact (if_pos ⟨rfl, hz⟩).symm
    · have : fastSource (k :: ks) = none := by
        cases ks with
        | nil => exact if_neg (fun h => hz ⟨rfl, h⟩)
        | cons k2 ks => rfl
      rw [this]
      simp only
      rw [if_neg hz]
      exact mixAll_overwrite hf k ks _

theorem window_congr {M n : Nat} {x y : Nat → Nat → S}
    (h : ∀ c f, c < M → f < n → x c f = y c f) : window M n x = window M n y := by
  funext c f
  unfold window
  split_ifs with hh
  · rw [h c f hh.1 hh.2]
  · rfl

end inputs

variable [Zero S] [Add S] {D : Dims} {ops : NodeOps S P C} {n : Nat} {t : Int}

/-- The signals and states of a block are determined by its order of connections. -/
theorem ran_unique {p : Patch Connection} {order : List Id} (hv : p.ValidOrder order)
    {base : Id → Nat → Nat → S} {before after after' : Id → Option (Dsp P)} {sig sig' : Signals S}
    (h : ∀ i ∈ p.nodes, Ran D ops n t p base before after sig i)
    (h' : ∀ i ∈ p.nodes, Ran D ops n t p base before after' sig' i) :
    ∀ i ∈ p.nodes, sig i = sig' i ∧ after i = after' i := by
  have key : ∀ (rest done : List Id), done ++ rest = order →
      (∀ i ∈ done, sig i = sig' i ∧ after i = after' i) →
      ∀ i ∈ order, sig i = sig' i ∧ after i = after' i := by
    intro rest
    induction rest with
    | nil => intro done he hd; rw [← he, List.append_nil]; exact hd
    | cons j rest ih =>
      intro done he hd
      refine ih (done ++ [j]) (by rw [← he]; simp) ?_
      intro i hi
      rw [List.mem_append, List.mem_singleton] at hi
      rcases hi with hi | rfl
      · exact hd i hi
      · have hin : i ∈ p.nodes := (hv.complete i).mp (by rw [← he]; simp)
        obtain ⟨d, out, st, a1, a2, a3, a4, _⟩ := h i hin
        obtain ⟨d', out', st', b1, b2, b3, b4, _⟩ := h' i hin
        rw [a1] at b1
        injection b1 with b1
        subst b1
        have hb : builtInput n sig (base i) (p.at' i .incoming) =
            builtInput n sig' (base i) (p.at' i .incoming) := by
          apply builtInput_congr
          intro kk hk
          exact (hd kk.src (sources_done (by rw [he]; exact hv) kk hk)).1
        rw [hb, b2] at a2
        injection a2 with a2
        obtain ⟨rfl, rfl⟩ := Prod.mk.inj a2
        exact ⟨by rw [a4, b4], by rw [a3, b3]⟩
  intro i hi
  exact key order [] rfl (by intro i hi; cases hi) i ((hv.complete i).mpr hi)

/-- A block that can be rendered in one order can be rendered in every order. -/
theorem fold_progress_of_ran {N : Nat} {env : Env} {g0 : Graph (Dsp P) Connection}
    {p : Patch Connection} {inp : Option Id} {x0 : Nat → Nat → S} (hn0 : 0 < n) (hn : n ≤ D.fr)
    {after0 : Id → Option (Dsp P)} {sig0 : Signals S}
    (hran : ∀ i ∈ p.nodes, Ran D ops n t p (baseOf inp x0) g0.getNode after0 sig0 i) :
    ∀ (rest done : List Id) (sig : Signals S) (pools : Pools S) (g : Graph (Dsp P) Connection),
    p.ValidOrder (done ++ rest) → (done ++ rest).length + 2 ≤ N →
    LoopInv D ops n t g0 p inp x0 N done sig pools g → (∀ i ∈ done, sig i = sig0 i) →
    ∃ r, rest.foldlM (processDsp ops env n t) (pools, g) = .ok r := by
  intro rest
  induction rest with
  | nil => intro done sig pools g _ _ h _; exact ⟨_, rfl⟩
  | cons i rest ih =>
    intro done sig pools g hv hN h hsig
    have hi : i ∉ done := by
      have := hv.nodup
      rw [List.nodup_append] at this
      intro hi
      exact this.2.2 i hi i (List.mem_cons_self ..) rfl
    have hin : i ∈ p.nodes := (hv.complete i).mp (by simp)
    have hsrc := sources_done hv
    obtain ⟨d, out, st, r1, r2, r3, r4, r5, r6, r7⟩ := hran i hin
    have hd : g.getNode i = some d := by rw [h.todo i hi]; exact r1
    have hb : builtInput n sig (baseOf inp x0 i) (p.at' i .incoming) =
        builtInput n sig0 (baseOf inp x0 i) (p.at' i .incoming) :=
      builtInput_congr (fun kk hk => hsig kk.src (hsrc kk hk))
    obtain ⟨⟨pools1, g1⟩, h1⟩ := processDsp_progress (ops := ops) (env := env) (t := t) (sig := sig)
      h.rep.shows hd hn0 hn h.pi
      (by simp only [poolMap]; rw [if_neg hi])
      (by
        have := pending_le p inp done
        rw [List.length_append, List.length_cons] at hN
        omega)
      (by
        intro kk hk
        simp only [poolMap]; rw [if_pos (hsrc kk hk)]) r5 r6 r7
      ⟨(out, st), by rw [found_input p inp x0 done sig hi, hb]; exact r2⟩
    obtain ⟨y, hy⟩ := h.step hn0 hn hi hin hsrc h1
    have hv' : p.ValidOrder ((done ++ [i]) ++ rest) := by simpa using hv
    have hsig' : ∀ j ∈ done ++ [i], Function.update sig i y j = sig0 j := by
      intro j hj
      rw [List.mem_append, List.mem_singleton] at hj
      rcases hj with hj | rfl
      · rw [Function.update_of_ne (by rintro rfl; exact hi hj)]
        exact hsig j hj
      · obtain ⟨d', out', st', q1, q2, _, q4, _⟩ := hy.ran j (by simp)
        rw [r1] at q1
        injection q1 with q1
        subst q1
        have hb' : builtInput n (Function.update sig j y) (baseOf inp x0 j) (p.at' j .incoming) =
            builtInput n sig0 (baseOf inp x0 j) (p.at' j .incoming) := by
          apply builtInput_congr
          intro kk hk
          rw [Function.update_of_ne (by rintro hkk; exact hi (hkk ▸ hsrc kk hk))]
          exact hsig kk.src (hsrc kk hk)
        rw [hb', r2] at q2
        injection q2 with q2
        obtain ⟨rfl, rfl⟩ := Prod.mk.inj q2
        rw [q4, r4]
    obtain ⟨r, hr⟩ := ih _ _ _ _ hv' (by simpa using hN) hy hsig'
    refine ⟨r, ?_⟩
    rw [List.foldlM_cons]
    exact (ok_bind h1).trans hr

end DspGraph
end Rawdio
