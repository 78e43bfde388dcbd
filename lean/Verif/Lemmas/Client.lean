import Verif.Spec.Client
import Verif.Lemmas.EngineSplit
import Verif.Lemmas.EngineGarbage

/-! Helper lemmas: what a program holds and what the engine has. -/

namespace Rawdio

open DspGraph

variable {S P C : Type}

/-- The engine has what the program holds. -/
structure Agrees (mc : Nat) (h : Holding) (V : View P) : Prop where
  nodes : V.patch.nodes = h.nodes.map Held.id
  links : V.patch.conns.map Conn.link = h.links
  counts : ∀ i d, V.node i = some d → ∃ x ∈ h.nodes, x.id = i ∧ x.inputs = d.inputCount ∧ x.outputs = d.outputCount
  unique : (h.nodes.map Held.id).Nodup
  small : h.nodes.length ≤ 1022
  fits : ∀ x ∈ h.nodes, x.inputs ≤ mc ∧ x.outputs ≤ mc
  narrow : ∀ l ∈ h.links, l.sourceChannel + l.channels ≤ mc ∧ l.destinationChannel + l.channels ≤ mc
  single : (h.links.map fun l => (l.src, l.dst)).Nodup
  acyclic : h.Acyclic

theorem agrees_empty (mc : Nat) : Agrees mc Holding.empty (View.empty : View P) := by
  refine ⟨rfl, rfl, (by intro i d h; cases h), (by simp [Holding.empty]), (by simp [Holding.empty]),
    (by simp [Holding.empty]), (by simp [Holding.empty]), (by simp [Holding.empty]), ?_⟩
  intro n h
  obtain ⟨b, _, l, hl, _⟩ := Relation.TransGen.tail'_iff.mp h
  cases hl

theorem Holding.acyclic_of_subset {h h' : Holding} (hs : ∀ l ∈ h'.links, l ∈ h.links) (ha : h.Acyclic) :
    h'.Acyclic := by
  intro n hn
  refine ha n (Relation.TransGen.mono ?_ n n hn)
  rintro a b ⟨l, hl, e⟩
  exact ⟨l, hs l hl, e⟩

theorem Agrees.acyclicPatch {mc : Nat} {h : Holding} {V : View P} (a : Agrees mc h V) : V.patch.Acyclic := by
  intro n hn
  refine a.acyclic n (Relation.TransGen.mono ?_ n n hn)
  rintro x y ⟨c, hc, rfl, rfl⟩
  refine ⟨c.link, ?_, rfl, rfl⟩
  rw [← a.links]
  exact List.mem_map_of_mem hc

theorem Agrees.noParallel {mc : Nat} {h : Holding} {V : View P} (a : Agrees mc h V) : V.patch.NoParallel := by
  have := a.single
  rw [← a.links, List.map_map] at this
  exact this

theorem Agrees.mem {mc : Nat} {h : Holding} {V : View P} (a : Agrees mc h V) {n : GraphNode} (hn : h.Holds n) :
    n.id ∈ V.patch.nodes := by
  obtain ⟨x, hx, e, _⟩ := hn
  rw [a.nodes, ← e]
  exact List.mem_map_of_mem hx

/-- What one command does to an engine that has what the program holds. -/
theorem effect_agrees {ops : NodeOps S P C} {mc : Nat} {h : Holding} {V W : View P} {c : ApiCall P C}
    (a : Agrees mc h V) (ht : h.Typed c) (hc : h.Careful mc c) (e : Command.Effect ops V c.command W) :
    Agrees mc (h.after c) W := by
  have hadd : ∀ (l : Link) (k : Connection), k.source.dsp = l.src → k.destination.dsp = l.dst →
      k.sourceChannel = l.sourceChannel → k.destinationChannel = l.destinationChannel → k.channelCount = l.channels →
      ¬ h.Joined l.src l.dst → l.sourceChannel + l.channels ≤ mc → l.destinationChannel + l.channels ≤ mc →
      Holding.Acyclic { h with links := h.links ++ [l] } → Command.Effect ops V (.addConnection k) W →
      Agrees mc { h with links := h.links ++ [l] } W := by
    intro l k e1 e2 e3 e4 e5 hj hs hd ha e
    cases e with
    | addConnection k id q _ hq =>
      cases hq
      refine ⟨a.nodes, ?_, a.counts, a.unique, a.small, a.fits, ?_, ?_, ha⟩
      · simp only [List.map_append, List.map_cons, List.map_nil, a.links]
        congr 2
        simp only [Conn.link, e1, e2, e3, e4, e5]
      · intro x hx
        rcases List.mem_append.mp hx with hx | hx
        · exact a.narrow x hx
        · rw [List.mem_singleton] at hx
          subst hx
          exact ⟨hs, hd⟩
      · simp only [List.map_append, List.map_cons, List.map_nil]
        rw [List.nodup_append]
        refine ⟨a.single, List.nodup_singleton _, ?_⟩
        intro x hx y hy hxy
        rw [List.mem_singleton] at hy
        subst hy
        obtain ⟨m, hm, e⟩ := List.mem_map.mp hx
        rw [hxy] at e
        obtain ⟨p1, p2⟩ := Prod.mk.inj e
        exact hj ⟨m, hm, p1, p2⟩
  cases c with
  | create id inputs outputs state =>
    cases e with
    | addDsp d q hq =>
      cases hq
      obtain ⟨c1, c2, c3⟩ := hc
      refine ⟨?_, a.links, ?_, ?_, ?_, ?_, a.narrow, a.single, a.acyclic⟩
      · simp [Holding.after, a.nodes]
      · intro i d hd
        simp only at hd
        split_ifs at hd with hi
        · cases hd
          exact ⟨⟨id, inputs, outputs⟩, by simp [Holding.after], hi.symm, rfl, rfl⟩
        · obtain ⟨x, hx, e⟩ := a.counts i d hd
          exact ⟨x, List.mem_append_left _ hx, e⟩
      · simp only [Holding.after, List.map_append, List.map_cons, List.map_nil]
        rw [List.nodup_append]
        refine ⟨a.unique, List.nodup_singleton _, ?_⟩
        intro x hx y hy hxy
        rw [List.mem_singleton] at hy
        obtain ⟨m, hm, e⟩ := List.mem_map.mp hx
        exact ht m hm (by rw [e, hxy, hy])
      · simp only [Holding.after, List.length_append, List.length_singleton]
        omega
      · intro x hx
        rcases List.mem_append.mp hx with hx | hx
        · exact a.fits x hx
        · rw [List.mem_singleton] at hx
          subst hx
          exact ⟨c1, c2⟩
  | connectToInput n => cases e; exact ⟨a.nodes, a.links, a.counts, a.unique, a.small, a.fits, a.narrow, a.single, a.acyclic⟩
  | connectToOutput n => cases e; exact ⟨a.nodes, a.links, a.counts, a.unique, a.small, a.fits, a.narrow, a.single, a.acyclic⟩
  | start => cases e; exact ⟨a.nodes, a.links, a.counts, a.unique, a.small, a.fits, a.narrow, a.single, a.acyclic⟩
  | stop => cases e; exact ⟨a.nodes, a.links, a.counts, a.unique, a.small, a.fits, a.narrow, a.single, a.acyclic⟩
  | connectTo x y =>
    obtain ⟨h1, h2⟩ := hc
    obtain ⟨n, hn, e1, e2⟩ := ht.1
    have hw := (a.fits n hn).2
    rw [e2] at hw
    exact hadd ⟨x.id, y.id, 0, 0, x.outputCount⟩ _ rfl rfl rfl rfl rfl h1 (by simpa using hw) (by simpa using hw) h2 e
  | connectChannelsTo x y s d n =>
    obtain ⟨h1, h2, h3, h4⟩ := hc
    exact hadd ⟨x.id, y.id, s, d, n⟩ _ rfl rfl rfl rfl rfl h1 h2 h3 h4 e
  | disconnectFromNode x y =>
    have hsub : ∀ l ∈ (h.after (.disconnectFromNode x y : ApiCall P C)).links, l ∈ h.links := by
      intro l hl
      exact List.mem_of_mem_filter hl
    have hrest : ∀ W : View P, W.patch.nodes = V.patch.nodes → W.node = V.node →
        W.patch.conns.map Conn.link = (h.after (.disconnectFromNode x y : ApiCall P C)).links →
        Agrees mc (h.after (.disconnectFromNode x y : ApiCall P C)) W := by
      intro W w1 w2 w3
      refine ⟨w1.trans a.nodes, w3, by rw [w2]; exact a.counts, a.unique, a.small, a.fits,
        fun l hl => a.narrow l (hsub l hl), ?_, Holding.acyclic_of_subset hsub a.acyclic⟩
      exact a.single.sublist (List.Sublist.map _ List.filter_sublist)
    cases e with
    | removeConnection k q hq =>
      cases hq with
      | disconnect x' y' before after c hx hy hs =>
        refine hrest _ rfl rfl ?_
        simp only [Holding.after]
        have hnd := a.single
        rw [← a.links, hs] at hnd
        rw [← a.links, hs]
        simp only [List.map_append, List.map_cons, List.filter_append, List.filter_cons] at hnd ⊢
        have hcx : c.src = x.id := hx
        have hcy : c.dst = y.id := hy
        rw [if_neg (by simp [Conn.link, hcx, hcy])]
        have hne : ∀ m ∈ before ++ after, ¬ (m.src = x.id ∧ m.dst = y.id) := by
          intro m hm hmm
          rw [List.nodup_append, List.nodup_cons] at hnd
          obtain ⟨_, ⟨n2, _⟩, n3⟩ := hnd
          rcases List.mem_append.mp hm with hm | hm
          · exact n3 (m.link.src, m.link.dst) (List.mem_map_of_mem (List.mem_map_of_mem hm)) (c.link.src, c.link.dst)
              (by simp) (by simp [Conn.link, hcx, hcy, hmm])
          · apply n2
            have : (c.link.src, c.link.dst) = (m.link.src, m.link.dst) := by simp [Conn.link, hcx, hcy, hmm]
            rw [this]
            exact List.mem_map_of_mem (List.mem_map_of_mem hm)
        rw [List.filter_eq_self.mpr, List.filter_eq_self.mpr]
        · intro l hl
          obtain ⟨m, hm, rfl⟩ := List.mem_map.mp hl
          exact decide_eq_true (hne m (List.mem_append_right _ hm))
        · intro l hl
          obtain ⟨m, hm, rfl⟩ := List.mem_map.mp hl
          exact decide_eq_true (hne m (List.mem_append_left _ hm))
      | disconnectNone x' y' hn =>
        refine hrest _ rfl rfl ?_
        simp only [Holding.after]
        rw [← a.links, List.filter_eq_self.mpr]
        intro l hl
        obtain ⟨m, hm, rfl⟩ := List.mem_map.mp hl
        exact decide_eq_true (hn m hm)
  | drop x =>
    cases e with
    | removeDsp i q hq =>
      cases hq with
      | removeNode i hi =>
        refine ⟨?_, a.links, ?_, ?_, ?_, ?_, a.narrow, a.single, a.acyclic⟩
        · simp only [Holding.after, a.nodes]
          rw [List.filter_map]
          congr 1
          refine List.filter_congr fun y _ => ?_
          by_cases hy : y.id = x.id <;> simp [hy]
        · intro i d hd
          simp only at hd
          split_ifs at hd with hi
          obtain ⟨y, hy, e1, e2⟩ := a.counts i d hd
          exact ⟨y, List.mem_filter.mpr ⟨hy, by simpa [e1] using hi⟩, e1, e2⟩
        · exact a.unique.sublist (List.Sublist.map _ List.filter_sublist)
        · exact (List.length_filter_le _ _).trans a.small
        · intro y hy
          exact a.fits y (List.mem_of_mem_filter hy)
  | change n r =>
    cases e with
    | change i r d s hd hs =>
      refine ⟨a.nodes, a.links, ?_, a.unique, a.small, a.fits, a.narrow, a.single, a.acyclic⟩
      intro i d' hd'
      simp only at hd'
      split_ifs at hd' with hi
      · cases hd'
        obtain ⟨x, hx, e1, e2⟩ := a.counts _ _ hd
        exact ⟨x, hx, e1.trans hi.symm, e2⟩
      · exact a.counts i d' hd'
    | changeAbsent i r hn => exact ⟨a.nodes, a.links, a.counts, a.unique, a.small, a.fits, a.narrow, a.single, a.acyclic⟩

/-- A careful call is not refused. -/
theorem not_refused {mc : Nat} {h : Holding} {V : View P} {c : ApiCall P C}
    (a : Agrees mc h V) (ht : h.Typed c) (hc : h.Careful mc c) : ¬ Command.Refused V c.command := by
  cases c with
  | create id inputs outputs state =>
    intro hr
    change id ∈ V.patch.nodes at hr
    rw [a.nodes] at hr
    obtain ⟨x, hx, e⟩ := List.mem_map.mp hr
    exact ht x hx e
  | connectTo x y =>
    rintro (hr | hr)
    · exact hr (a.mem ht.1)
    · exact hr (a.mem ht.2)
  | connectChannelsTo x y s d n =>
    rintro (hr | hr)
    · exact hr (a.mem ht.1)
    · exact hr (a.mem ht.2)
  | drop x =>
    rintro ⟨k, hk, hr⟩
    have hm : k.link ∈ h.links := by rw [← a.links]; exact List.mem_map_of_mem hk
    obtain ⟨h1, h2⟩ := hc _ hm
    rcases hr with hr | hr
    · exact h1 hr
    · exact h2 hr
  | connectToInput n => exact id
  | connectToOutput n => exact id
  | start => exact id
  | stop => exact id
  | disconnectFromNode x y => exact id
  | change n r => exact id

theorem command_api (c : ApiCall P C) : c.command.Api := by
  cases c <;> first | rfl | trivial

theorem effects_agrees {ops : NodeOps S P C} {mc : Nat} : ∀ (program : List (ApiCall P C)) {h : Holding}
    {V W : View P}, Agrees mc h V → Allowed (fun h c => h.Typed c ∧ h.Careful mc c) h program →
    Command.Effects ops V (program.map ApiCall.command) W → Agrees mc (h.afterAll program) W := by
  intro program
  induction program with
  | nil => intro h V W a _ e; cases e; exact a
  | cons c cs ih =>
    intro h V W a hp e
    cases e with
    | cons e1 e2 => exact ih (effect_agrees a hp.1.1 hp.1.2 e1) hp.2 e2

theorem allowed_append {f : Holding → ApiCall P C → Prop} : ∀ (xs ys : List (ApiCall P C)) (h : Holding),
    Allowed f h (xs ++ ys) ↔ Allowed f h xs ∧ Allowed f (h.afterAll xs) ys := by
  intro xs
  induction xs with
  | nil => intro ys h; simp [Allowed, Holding.afterAll]
  | cons x xs ih =>
    intro ys h
    simp only [List.cons_append, Allowed, ih, and_assoc]
    rfl

theorem drops_append (xs ys : List (ApiCall P C)) : drops (xs ++ ys) = drops xs + drops ys :=
  List.countP_append

theorem drops_removals (xs : List (ApiCall P C)) : Command.removals (xs.map ApiCall.command) = drops xs := by
  unfold Command.removals drops
  rw [List.countP_map]
  refine List.countP_congr fun c _ => ?_
  cases c <;> simp [ApiCall.command]

end Rawdio
