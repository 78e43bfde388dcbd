import Verif.Lemmas.RenderStep

/-! Helper lemmas about rendering all nodes in a processing order. -/

namespace Rawdio

namespace Graph

variable {N E : Type}

theorem getNode_setNode (g : Graph N E) (i j : Id) (d : N) :
    (g.setNode i d).getNode j = if j = i then (g.getNode j).map (fun _ => d) else g.getNode j := by
  simp only [setNode, getNode, HMap.get?_update]
  split_ifs with h
  · subst h
    cases g.nodes.get? j <;> rfl
  · rfl

theorem rep_setNode {g : Graph N E} {p : Patch E} (h : Rep g p) (i : Id) (d : N) :
    Rep (g.setNode i d) p := by
  refine ⟨?_, h.nodupE, h.nodupC, ?_, h.nodupP, h.ends, ?_, h.edge, h.edgeNone⟩
  · rw [setNode, HMap.keys_update]; exact h.nodupN
  · intro j
    rw [h.nodeMem, setNode, HMap.get?_update]
    split_ifs with hj
    · subst hj; cases g.nodes.get? j <;> rfl
    · rfl
  · intro n nd hn dir
    rw [setNode] at hn
    change HMap.get? (HMap.update _ _ _) _ = _ at hn
    rw [HMap.get?_update] at hn
    split_ifs at hn with hj
    · cases hg : g.nodes.get? n with
      | none => rw [hg] at hn; cases hn
      | some nd0 =>
        rw [hg] at hn
        injection hn with hn
        subst hn
        rw [← h.first n nd0 hg dir]
        cases dir <;> rfl
    · exact h.first n nd hn dir

end Graph

namespace DspGraph

open Graph

variable {S P C : Type} [Zero S] [Add S] {D : Dims} {N k : Nat} {pools pools' : Pools S}
  {m : Endpoint → Option (Nat → Nat → S)}

theorem mixAll_congr {n : Nat} {sig sig' : Signals S} :
    ∀ (ks : List (Conn Connection)) (beh : MixBehaviour) (x : Nat → Nat → S),
    (∀ kk ∈ ks, sig kk.src = sig' kk.src) → mixAll n sig beh ks x = mixAll n sig' beh ks x := by
  intro ks
  induction ks with
  | nil => intro _ _ _; rfl
  | cons kk ks ih =>
    intro beh x h
    rw [mixAll, mixAll, h kk (List.mem_cons_self ..)]
    exact ih _ _ (fun k hk => h k (List.mem_cons_of_mem _ hk))

theorem fastSource_mem {ks : List (Conn Connection)} {s : Id} (h : fastSource ks = some s) :
    ∃ kk, ks = [kk] ∧ kk.src = s ∧ kk.data.destinationChannel = 0 ∧ kk.data.sourceChannel = 0 := by
  match ks, h with
  | [], h => cases h
  | [kk], h =>
    rw [fastSource] at h
    split_ifs at h with hz
    injection h with h
    exact ⟨kk, rfl, h, hz⟩
  | _ :: _ :: _, h => cases h

theorem builtInput_congr {n : Nat} {sig sig' : Signals S} {ks : List (Conn Connection)}
    {x : Nat → Nat → S} (h : ∀ kk ∈ ks, sig kk.src = sig' kk.src) :
    builtInput n sig x ks = builtInput n sig' x ks := by
  unfold builtInput
  cases hf : fastSource ks with
  | none => exact mixAll_congr _ _ _ h
  | some s =>
    obtain ⟨kk, rfl, rfl, _⟩ := fastSource_mem hf
    exact h kk (List.mem_cons_self ..)

/-- What is assigned after node `i` produced `y`. -/
def stepMap (m : Endpoint → Option (Nat → Nat → S)) (i : Id) (fast : Option Id)
    (y : Nat → Nat → S) : Endpoint → Option (Nat → Nat → S) :=
  match fast with
  | some _ => Function.update m ⟨.output, i⟩ (some y)
  | none => Function.update (Function.update m ⟨.input, i⟩ none) ⟨.output, i⟩ (some y)

/-- The number of buffers assigned after node `i`. -/
def stepCount (m : Endpoint → Option (Nat → Nat → S)) (i : Id) (fast : Option Id) (k : Nat) : Nat :=
  if fast = none ∧ (m ⟨.input, i⟩).isSome then k else k + 1

theorem processDsp_ok {ops : NodeOps S P C} {env : Env} {n : Nat} {t : Int}
    {g g' : Graph (Dsp P) Connection} {p : Patch Connection} (hs : g.Shows p) {i : Id} {d : Dsp P}
    (hd : g.getNode i = some d) (hn0 : 0 < n) (hn : n ≤ D.fr) {sig : Signals S}
    (hp : PI D N k pools m) (hi : m ⟨.output, i⟩ = none)
    (hsrc : ∀ kk ∈ p.at' i .incoming, m ⟨.output, kk.src⟩ = some (sig kk.src))
    (h : processDsp ops env n t (pools, g) i = .ok (pools', g')) :
    d.outputCount ≤ D.ch ∧ d.inputCount ≤ D.ch ∧ InputFits D.ch (p.at' i .incoming) ∧
    ∃ out st,
      ops.run d.state ⟨n, D.sr, t, window d.inputCount n
          (builtInput n sig (found m ⟨.input, i⟩) (p.at' i .incoming)),
        window d.outputCount n silence⟩ = .ok (out, st) ∧
      g' = g.setNode i { d with state := st } ∧
      PI D N (stepCount m i (fastSource (p.at' i .incoming)) k) pools'
        (stepMap m i (fastSource (p.at' i .incoming))
          (fun c f => if c < d.outputCount ∧ f < n then out c f else 0)) := by
  have hin : i ∈ p.nodes := (hs.nodes i).mpr ⟨d, hd⟩
  obtain ⟨o, h1, h⟩ := bind_ok h
  obtain ⟨pr, h2, h⟩ := bind_ok h
  obtain ⟨r, h3, h⟩ := bind_ok h
  obtain ⟨N1, rfl, ho, hp1⟩ := hp.take h1
  have hu : Function.update m ⟨.output, i⟩ none = m := by
    rw [← hi]; exact Function.update_eq_self ..
  rw [hu, hi, Option.isSome_none, if_neg (by simp)] at hp1
  rw [found, hi, Option.getD_none] at ho
  obtain ⟨N2, rfl, hx, hcase⟩ := prepareInput_ok hs hin hn0 hn hp1 hsrc h2
  obtain ⟨q1, q2, out, st, q3, q4, q5⟩ := runNode_ok hd ho hx hn h3
  rcases hcase with ⟨s, hf, hep, hp2⟩ | ⟨hf, hep, hp2, hfits⟩
  · obtain ⟨kk, hks, hkk, hz⟩ := fastSource_mem hf
    have hms := hsrc kk (by rw [hks]; exact List.mem_cons_self ..)
    rw [hkk] at hms
    have hsi : s ≠ i := by rintro rfl; rw [hi] at hms; cases hms
    refine ⟨q1, q2, fun hno => (by rw [hf] at hno; cases hno), out, st, q3, ?_⟩
    rw [hep] at h
    change Except.ok _ = Except.ok _ at h
    injection h with h
    obtain ⟨rfl, rfl⟩ := Prod.mk.inj h
    refine ⟨q5, ?_⟩
    have hp3 := hp2.assign (ep := ⟨.output, i⟩) q4 (by
      rw [Function.update_of_ne (by simpa using hsi.symm)]; exact hi)
    have hbs : Holds D pr.buffer (sig s) := by
      rw [builtInput, hf] at hx; exact hx
    have hp4 := hp3.assign (ep := ⟨.output, s⟩) hbs (by
      rw [Function.update_of_ne (by simpa using hsi), Function.update_self])
    have hk1 : 0 < k := by
      obtain ⟨b, hb, _⟩ := hp.present _ _ hms
      have := HMap.length_remove_some hp.nodup hb
      have := hp.assigned
      omega
    rw [hf, stepCount, stepMap, if_neg (by simp)]
    have e1 : k - 1 + 1 + 1 = k + 1 := by omega
    rw [e1] at hp4
    have e2 : Function.update (Function.update (Function.update m ⟨.output, s⟩ none) ⟨.output, i⟩
        (some (fun c f => if c < d.outputCount ∧ f < n then out c f else 0))) ⟨.output, s⟩
        (some (sig s)) = Function.update m ⟨.output, i⟩
          (some (fun c f => if c < d.outputCount ∧ f < n then out c f else 0)) := by
      funext e
      by_cases he : e = ⟨.output, s⟩
      · subst he
        rw [Function.update_self, Function.update_of_ne (by simpa using hsi), hms]
      · rw [Function.update_of_ne he]
        by_cases he2 : e = ⟨.output, i⟩
        · subst he2; rw [Function.update_self, Function.update_self]
        · rw [Function.update_of_ne he2, Function.update_of_ne he, Function.update_of_ne he2]
    rw [e2] at hp4
    exact hp4
  · refine ⟨q1, q2, fun _ => hfits, out, st, q3, ?_⟩
    rw [hep] at h
    change ((inferInstance : Monad (Except Fault)).toBind.bind _ _) = Except.ok _ at h
    obtain ⟨pp, h4, h⟩ := bind_ok h
    injection h with h
    obtain ⟨rfl, rfl⟩ := Prod.mk.inj h
    refine ⟨q5, ?_⟩
    have hp3 := hp2.assign (ep := ⟨.output, i⟩) q4 (by
      rw [Function.update_of_ne (by simp)]; exact hi)
    obtain ⟨pp', e4, hp4⟩ := hp3.giveBack hx
    rw [h4] at e4
    injection e4 with e4
    subst e4
    rw [hf, stepCount, stepMap]
    cases hmi : m ⟨.input, i⟩ with
    | none =>
      rw [hmi] at hp4
      rw [if_neg (by simp)]
      rw [Option.isSome_none, if_neg (by simp)] at hp4
      exact hp4
    | some x =>
      have hk1 : 0 < k := by
        obtain ⟨b, hb, _⟩ := hp.present _ _ hmi
        have := HMap.length_remove_some hp.nodup hb
        have := hp.assigned
        omega
      rw [hmi] at hp4
      rw [if_pos (by simp)]
      rw [Option.isSome_some, if_pos rfl] at hp4
      have e1 : k - 1 + 1 = k := by omega
      rw [e1] at hp4
      exact hp4

theorem processDsp_progress {ops : NodeOps S P C} {env : Env} {n : Nat} {t : Int}
    {g : Graph (Dsp P) Connection} {p : Patch Connection} (hs : g.Shows p) {i : Id} {d : Dsp P}
    (hd : g.getNode i = some d) (hn0 : 0 < n) (hn : n ≤ D.fr) {sig : Signals S}
    (hp : PI D N k pools m) (hi : m ⟨.output, i⟩ = none) (hk : k + 2 ≤ N)
    (hsrc : ∀ kk ∈ p.at' i .incoming, m ⟨.output, kk.src⟩ = some (sig kk.src))
    (hoc : d.outputCount ≤ D.ch) (hic : d.inputCount ≤ D.ch)
    (hfit : InputFits D.ch (p.at' i .incoming))
    (hr : ∃ r, ops.run d.state ⟨n, D.sr, t, window d.inputCount n
          (builtInput n sig (found m ⟨.input, i⟩) (p.at' i .incoming)),
        window d.outputCount n silence⟩ = .ok r) :
    ∃ r, processDsp ops env n t (pools, g) i = .ok r := by
  have hin : i ∈ p.nodes := (hs.nodes i).mpr ⟨d, hd⟩
  obtain ⟨ob, pools1, h1⟩ := hp.take_progress (ep := ⟨.output, i⟩) (by omega)
  obtain ⟨N1, rfl, ho, hp1⟩ := hp.take h1
  have hu : Function.update m ⟨.output, i⟩ none = m := by
    rw [← hi]; exact Function.update_eq_self ..
  rw [hu, hi, Option.isSome_none, if_neg (by simp)] at hp1
  rw [found, hi, Option.getD_none] at ho
  obtain ⟨pr, h2⟩ := prepareInput_progress (env := env) hs hin hn hp1 (by omega) hsrc hfit
  obtain ⟨N2, rfl, hx, hcase⟩ := prepareInput_ok hs hin hn0 hn hp1 hsrc h2
  obtain ⟨⟨out, st⟩, hr⟩ := hr
  obtain ⟨⟨b', g'⟩, h3⟩ := runNode_progress (ops := ops) hd ho hx hn hoc hic hr
  obtain ⟨q1, q2, out', st', q3, q4, q5⟩ := runNode_ok hd ho hx hn h3
  unfold processDsp
  simp only [h1, h2, h3, bind, Except.bind]
  rcases hcase with ⟨s, hf, hep, hp2⟩ | ⟨hf, hep, hp2, hfits⟩
  · rw [hep]; exact ⟨_, rfl⟩
  · rw [hep]
    have hp3 := hp2.assign (ep := ⟨.output, i⟩) q4 (by
      rw [Function.update_of_ne (by simp)]; exact hi)
    obtain ⟨pp', e4, hp4⟩ := hp3.giveBack hx
    rw [if_pos rfl, e4]
    exact ⟨_, rfl⟩

end DspGraph
end Rawdio
