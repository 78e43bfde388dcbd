import Verif.Lemmas.PoolBuf
import Verif.Lemmas.TopologicalSort
import Verif.Spec.Render

/-! Helper lemmas about rendering one block: buffers move between the pool, the assigned map and the
hands of `process_dsp`. -/

namespace Rawdio
namespace HMap

variable {K V : Type} [DecidableEq K]

theorem length_remove_none {m : HMap K V} {k : K} (h : m.get? k = none) :
    m.remove k = m := by
  rw [remove, List.filter_eq_self]
  intro e he
  rw [bne_iff_ne]
  rintro rfl
  have : e.1 ∈ m.keys := List.mem_map_of_mem (f := Prod.fst) he
  rw [mem_keys, h] at this
  cases this

theorem length_remove_some {m : HMap K V} (hn : m.keys.Nodup) {k : K} {v : V}
    (h : m.get? k = some v) : (m.remove k).length + 1 = m.length := by
  induction m with
  | nil => cases h
  | cons e m ih =>
    obtain ⟨k', v'⟩ := e
    have hn' : k' ∉ HMap.keys m ∧ (HMap.keys m).Nodup := List.nodup_cons.mp hn
    rw [get?_cons] at h
    by_cases hk : k' = k
    · subst hk
      have h0 : HMap.get? m k' = none := by
        cases hg : HMap.get? m k' with
        | none => rfl
        | some w => exact absurd (mem_keys.mpr (by rw [hg]; rfl)) hn'.1
      have e0 := length_remove_none h0
      have : (remove ((k', v') :: m) k') = HMap.remove m k' := by
        simp [remove]
      rw [this, e0]; rfl
    · rw [if_neg hk] at h
      have : (remove ((k', v') :: m) k) = (k', v') :: HMap.remove m k := by
        simp [remove, hk]
      rw [this, List.length_cons, ih hn'.2 h, List.length_cons]

end HMap

namespace DspGraph

variable {S P C : Type}

/-- The pools hold: under each endpoint `ep` a buffer with the samples `m ep` (or none), `k` of them;
silent free buffers; `N` buffers in all. -/
structure PI [Zero S] (D : Dims) (N k : Nat) (pools : Pools S)
    (m : Endpoint → Option (Nat → Nat → S)) : Prop where
  nodup : pools.assigned.keys.Nodup
  absent : ∀ ep, m ep = none → pools.assigned.get? ep = none
  present : ∀ ep x, m ep = some x → ∃ b, pools.assigned.get? ep = some b ∧ Holds D b x
  free : ∀ b ∈ pools.free, b = Buf.new D.fr D.ch D.sr
  count : pools.free.length + pools.assigned.length = N
  assigned : pools.assigned.length = k

variable [Zero S] {D : Dims} {N k : Nat} {pools pools' : Pools S}
  {m : Endpoint → Option (Nat → Nat → S)}

/-- What is found under an endpoint, or a silent buffer. -/
def found (m : Endpoint → Option (Nat → Nat → S)) (ep : Endpoint) : Nat → Nat → S :=
  (m ep).getD silence

theorem PI.take (h : PI D N k pools m) {ep : Endpoint} {b : Buf S}
    (hg : pools.getBuffer ep = .ok (b, pools')) :
    ∃ N', N = N' + 1 ∧ Holds D b (found m ep) ∧
      PI D N' (if (m ep).isSome then k - 1 else k) pools' (Function.update m ep none) := by
  unfold Pools.getBuffer at hg
  cases hm : m ep with
  | some x =>
    obtain ⟨b', hb, hx⟩ := h.present ep x hm
    rw [hb] at hg
    injection hg with hg
    obtain ⟨rfl, rfl⟩ := Prod.mk.inj hg
    have hl := HMap.length_remove_some h.nodup hb
    refine ⟨N - 1, by have := h.count; omega, by rw [found, hm]; exact hx, ?_⟩
    refine ⟨HMap.nodup_remove h.nodup _, ?_, ?_, h.free, ?_, ?_⟩
    · intro e he
      change HMap.get? (HMap.remove _ _) _ = _
      rw [HMap.get?_remove]
      by_cases hee : e = ep
      · rw [if_pos hee]
      · rw [if_neg hee]
        rw [Function.update_of_ne hee] at he
        exact h.absent e he
    · intro e y he
      by_cases hee : e = ep
      · subst hee; rw [Function.update_self] at he; cases he
      · rw [Function.update_of_ne hee] at he
        change ∃ b, HMap.get? (HMap.remove _ _) _ = _ ∧ _
        rw [HMap.get?_remove, if_neg hee]
        exact h.present e y he
    · change pools.free.length + (HMap.remove _ _).length = _
      have := h.count; omega
    · change (HMap.remove _ _).length = _
      have := h.assigned
      simp only [Option.isSome_some, if_true]; omega
  | none =>
    rw [h.absent ep hm] at hg
    have hu : Function.update m ep none = m := by
      rw [← hm]; exact Function.update_eq_self ..
    rw [hu]
    cases hf : pools.free with
    | nil => rw [hf] at hg; cases hg
    | cons b0 fs =>
      rw [hf] at hg
      injection hg with hg
      obtain ⟨rfl, rfl⟩ := Prod.mk.inj hg
      have hc := h.count
      rw [hf, List.length_cons] at hc
      refine ⟨N - 1, by omega, ?_, ⟨h.nodup, h.absent, h.present, ?_, ?_, ?_⟩⟩
      · rw [found, hm, h.free b0 (by rw [hf]; exact List.mem_cons_self ..)]
        exact Holds.new
      · intro b hb
        exact h.free b (by rw [hf]; exact List.mem_cons_of_mem _ hb)
      · change fs.length + pools.assigned.length = _
        omega
      · simp only [Option.isSome_none, Bool.false_eq_true, if_false]
        exact h.assigned

theorem PI.take_progress (h : PI D N k pools m) {ep : Endpoint} (hk : k < N) :
    ∃ b pools', pools.getBuffer ep = .ok (b, pools') := by
  unfold Pools.getBuffer
  cases hm : pools.assigned.get? ep with
  | some b => exact ⟨_, _, rfl⟩
  | none =>
    cases hf : pools.free with
    | nil =>
      have := h.count
      rw [hf, h.assigned, List.length_nil] at this
      omega
    | cons b fs => exact ⟨_, _, rfl⟩

theorem PI.giveBack (h : PI D N k pools m) {b : Buf S} {x : Nat → Nat → S} (hx : Holds D b x) :
    ∃ pools', pools.giveBack b = .ok pools' ∧ PI D (N + 1) k pools' m := by
  refine ⟨⟨Buf.new D.fr D.ch D.sr :: pools.free, pools.assigned⟩, ?_, ?_⟩
  · simp only [Pools.giveBack, hx.clear, bind, Except.bind, pure, Except.pure]
  · refine ⟨h.nodup, h.absent, h.present, ?_, ?_, h.assigned⟩
    · intro b hb
      rcases List.mem_cons.mp hb with rfl | hb
      · rfl
      · exact h.free b hb
    · rw [List.length_cons]
      have := h.count
      change pools.free.length + 1 + pools.assigned.length = _
      omega

theorem PI.assign (h : PI D N k pools m) {ep : Endpoint} {b : Buf S} {x : Nat → Nat → S}
    (hx : Holds D b x) (hm : m ep = none) :
    PI D (N + 1) (k + 1) (pools.assign ep b) (Function.update m ep (some x)) := by
  have hr := HMap.length_remove_none (h.absent ep hm)
  have hl : (pools.assigned.insert ep b).length = pools.assigned.length + 1 := by
    rw [HMap.insert, hr]; rfl
  refine ⟨HMap.nodup_insert h.nodup _ _, ?_, ?_, h.free, ?_, ?_⟩
  · intro e he
    change HMap.get? (HMap.insert _ _ _) _ = _
    rw [HMap.get?_insert]
    by_cases hee : e = ep
    · subst hee; rw [Function.update_self] at he; cases he
    · rw [if_neg hee]
      rw [Function.update_of_ne hee] at he
      exact h.absent e he
  · intro e y he
    change ∃ b, HMap.get? (HMap.insert _ _ _) _ = _ ∧ _
    rw [HMap.get?_insert]
    by_cases hee : e = ep
    · subst hee
      rw [Function.update_self] at he
      injection he with he
      subst he
      exact ⟨b, if_pos rfl, hx⟩
    · rw [Function.update_of_ne hee] at he
      rw [if_neg hee]
      exact h.present e y he
  · have := h.count
    change pools.free.length + (HMap.insert _ _ _).length = _
    omega
  · change (HMap.insert _ _ _).length = _
    rw [hl, h.assigned]

/-- Taking a buffer out of the map and putting it back changes nothing that can be observed. -/
theorem PI.reinsert (h : PI D N k pools m) {ep : Endpoint} {b : Buf S}
    (hb : pools.assigned.get? ep = some b) :
    PI D N k ⟨pools.free, (pools.assigned.remove ep).insert ep b⟩ m := by
  have hget : ∀ e, ((pools.assigned.remove ep).insert ep b).get? e = pools.assigned.get? e := by
    intro e
    rw [HMap.get?_insert, HMap.get?_remove]
    by_cases he : e = ep
    · subst he; rw [if_pos rfl, hb]
    · rw [if_neg he, if_neg he]
  have hl : ((pools.assigned.remove ep).insert ep b).length = pools.assigned.length := by
    have h0 : (pools.assigned.remove ep).get? ep = none := by
      rw [HMap.get?_remove, if_pos rfl]
    rw [HMap.insert, HMap.length_remove_none h0, List.length_cons]
    exact HMap.length_remove_some h.nodup hb
  refine ⟨HMap.nodup_insert (HMap.nodup_remove h.nodup _) _ _, ?_, ?_, h.free, ?_, ?_⟩
  · intro e he; rw [hget]; exact h.absent e he
  · intro e y he; rw [hget]; exact h.present e y he
  · change pools.free.length + ((pools.assigned.remove ep).insert ep b).length = N
    rw [hl]; exact h.count
  · change ((pools.assigned.remove ep).insert ep b).length = k
    rw [hl]; exact h.assigned

variable [Add S]

/-- Mixing a list of connections one after the other, the first one with the given behaviour. -/
def mixAll (n : Nat) (sig : Signals S) :
    MixBehaviour → List (Conn Connection) → (Nat → Nat → S) → Nat → Nat → S
  | _, [], x => x
  | beh, k :: ks, x =>
    mixAll n sig .mix ks (mixed beh k.data.sourceChannel k.data.destinationChannel
      k.data.channelCount n x (sig k.src))

/-- The connection's region fits. -/
def ConnFits (ch : Nat) (k : Conn Connection) : Prop :=
  RegionFits ch k.data.sourceChannel k.data.destinationChannel k.data.channelCount

theorem mixEdges_ok {env : Env} {g : Graph (Dsp P) Connection} {n : Nat} {sig : Signals S}
    (hn0 : 0 < n) (hn : n ≤ D.fr) (free : List (Buf S)) :
    ∀ (ks : List (Conn Connection)) (s s' : MixState S) (x : Nat → Nat → S),
    (∀ k ∈ ks, ∃ e, g.getEdge k.id = some e ∧ e.fromNode = k.src ∧ e.data = k.data) →
    (∀ k ∈ ks, m ⟨.output, k.src⟩ = some (sig k.src)) →
    PI D N k ⟨free, s.assigned⟩ m → Holds D s.out x →
    (ks.map Conn.id).foldlM (mixEdge env g n) s = .ok s' →
    (∀ k ∈ ks, ConnFits D.ch k) ∧ PI D N k ⟨free, s'.assigned⟩ m ∧
      Holds D s'.out (mixAll n sig s.behaviour ks x) := by
  intro ks
  induction ks with
  | nil =>
    intro s s' x _ _ hp hx h
    injection h with h
    subst h
    exact ⟨by simp, hp, hx⟩
  | cons kk ks ih =>
    intro s s' x he hm hp hx h
    rw [List.map_cons] at h
    obtain ⟨s1, h1, h2⟩ := foldlM_cons_ok h
    obtain ⟨e, e1, e2, e3⟩ := he kk (List.mem_cons_self ..)
    obtain ⟨b, hb, hy⟩ := hp.present _ _ (hm kk (List.mem_cons_self ..))
    change s.assigned.get? _ = _ at hb
    simp only [mixEdge, e1, mixEndpoint, e2, e3, hb] at h1
    obtain ⟨r, h3, h4⟩ := bind_ok h1
    obtain ⟨o, h5, h6⟩ := bind_ok h3
    injection h6 with h6
    injection h4 with h4
    subst h4 h6
    obtain ⟨hfit, ho⟩ := mixBuffer_ok hx hy hn hn0 h5
    obtain ⟨q1, q2, q3⟩ := ih _ s' _ (fun k hk => he k (List.mem_cons_of_mem _ hk))
      (fun k hk => hm k (List.mem_cons_of_mem _ hk)) (hp.reinsert hb) ho h2
    refine ⟨?_, q2, q3⟩
    intro k hk
    rcases List.mem_cons.mp hk with rfl | hk
    · exact hfit
    · exact q1 k hk

theorem mixEdges_progress {env : Env} {g : Graph (Dsp P) Connection} {n : Nat} {sig : Signals S}
    (hn : n ≤ D.fr) (free : List (Buf S)) :
    ∀ (ks : List (Conn Connection)) (s : MixState S) (x : Nat → Nat → S),
    (∀ k ∈ ks, ∃ e, g.getEdge k.id = some e ∧ e.fromNode = k.src ∧ e.data = k.data) →
    (∀ k ∈ ks, m ⟨.output, k.src⟩ = some (sig k.src)) →
    (∀ k ∈ ks, ConnFits D.ch k) →
    PI D N k ⟨free, s.assigned⟩ m → Holds D s.out x →
    ∃ s', (ks.map Conn.id).foldlM (mixEdge env g n) s = .ok s' := by
  intro ks
  induction ks with
  | nil => intro s x _ _ _ _ _; exact ⟨s, rfl⟩
  | cons kk ks ih =>
    intro s x he hm hf hp hx
    obtain ⟨e, e1, e2, e3⟩ := he kk (List.mem_cons_self ..)
    obtain ⟨b, hb, hy⟩ := hp.present _ _ (hm kk (List.mem_cons_self ..))
    change s.assigned.get? _ = _ at hb
    obtain ⟨o, h5, ho⟩ := mixBuffer_fits hx hy (env.align kk.id) hn
      (hf kk (List.mem_cons_self ..)) s.behaviour
    obtain ⟨s', hs'⟩ := ih ⟨(s.assigned.remove ⟨.output, kk.src⟩).insert ⟨.output, kk.src⟩ b, o, .mix⟩
      _ (fun k hk => he k (List.mem_cons_of_mem _ hk))
      (fun k hk => hm k (List.mem_cons_of_mem _ hk))
      (fun k hk => hf k (List.mem_cons_of_mem _ hk)) (hp.reinsert hb) ho
    refine ⟨s', ?_⟩
    rw [List.map_cons, List.foldlM_cons]
    refine (ok_bind ?_).trans hs'
    simp only [mixEdge, e1, mixEndpoint, e2, e3, hb, h5, bind, Except.bind, pure, Except.pure]

end DspGraph
end Rawdio
