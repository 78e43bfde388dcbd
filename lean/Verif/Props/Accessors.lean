import Verif.Lemmas.Accessors

/-! # Properties of the parameters of the effects (C54, C73) -/

namespace Rawdio
namespace Effect

/-- What creation gives: a handle and a realtime parameter for exactly the documented names. -/
theorem create_spec (e : Effect) (h : e.Makeable) (id : Id) :
    ∃ p r, e.create id = .ok (p, r) ∧
      (∀ name ∈ e.documented.map Prod.fst, ∃ range, range.Valid ∧
        p.get? name = some ⟨id, name, range⟩ ∧ r.get? name = some ⟨name, range.default⟩) ∧
      (∀ name ∉ e.documented.map Prod.fst, p.get? name = none ∧ r.get? name = none) := by
  obtain ⟨os, h1, h2, h3⟩ := options_ok e
  have hv := options_valid e h os h1
  refine ⟨_, _, by rw [create, h1]; exact createParameters_ok id os hv, ?_, ?_⟩
  · intro name hn
    rw [← h3] at hn
    obtain ⟨o, ho, he⟩ := List.mem_map.mp hn
    obtain ⟨a1, a2, _⟩ := foldl_addParameter_fst id os name ([], []) h2
    exact ⟨o.range, hv o ho, a1 o ho he, a2 o ho he⟩
  · intro name hn
    rw [← h3] at hn
    obtain ⟨_, _, a3⟩ := foldl_addParameter_fst id os name ([], []) h2
    exact a3 (fun o ho he => hn (List.mem_map.mpr ⟨o, ho, he⟩))

/-- C54: on every effect, every documented parameter except the shelf gain of the biquad is returned by its
accessor. -/
theorem C54_accessor_partial (e : Effect) (h : e.Makeable) (id : Id) :
    ∃ p r, e.create id = .ok (p, r) ∧ ∀ d ∈ e.documented, d.1 ≠ "shelf-gain" →
      ∃ handle, e.access p d.2 = .ok handle ∧ handle.parameterId = d.1 ∧ handle.dspId = id := by
  obtain ⟨p, r, h1, h2, _⟩ := create_spec e h id
  refine ⟨p, r, h1, fun d hd hne => ?_⟩
  obtain ⟨range, _, h3, _⟩ := h2 d.1 (List.mem_map.mpr ⟨d, hd, rfl⟩)
  have hlook : HMap.get? e.accessors d.2 = some d.1 := by
    cases e <;> simp only [documented, List.mem_cons, List.not_mem_nil, or_false] at hd <;>
      rcases hd with rfl | rfl | rfl | rfl | rfl | rfl | rfl <;> first | exact absurd rfl hne | rfl
  exact ⟨⟨id, d.1, range⟩, by rw [access, hlook]; simp only [getParameter, h3], rfl, rfl⟩

/-- C54, violated: on every biquad the accessor of the shelf gain panics, although the parameter is there under its
documented name. -/
theorem C54_shelf_gain_violated (id : Id) :
    ∃ p r, biquad.create id = .ok (p, r) ∧ biquad.access p "shelf_gain" = .error .panic ∧
      ∃ handle, getParameter p "shelf-gain" = .ok handle ∧ handle.parameterId = "shelf-gain" := by
  obtain ⟨p, r, h1, h2, h3⟩ := create_spec biquad trivial id
  refine ⟨p, r, h1, ?_, ?_⟩
  · have e : HMap.get? biquad.accessors "shelf_gain" = some "shelf_gain" := rfl
    rw [access, e]
    simp only [getParameter, (h3 "shelf_gain" (by simp [documented])).1]
  · obtain ⟨range, _, e, _⟩ := h2 "shelf-gain" (by simp [documented])
    exact ⟨⟨id, "shelf-gain", range⟩, by simp only [getParameter, e], rfl⟩

/-- C54: the claim in full does not hold. -/
theorem C54_accessor_violated : ¬ ∀ (e : Effect), e.Makeable → ∀ id p r, e.create id = .ok (p, r) →
    ∀ d ∈ e.documented, ∃ handle, e.access p d.2 = .ok handle := by
  intro h
  obtain ⟨p, r, h1, h2, _⟩ := C54_shelf_gain_violated 0
  obtain ⟨handle, h3⟩ := h biquad trivial 0 p r h1 ("shelf-gain", "shelf_gain") (by simp [documented])
  rw [h2] at h3
  cases h3

/-- C54: through the name the documented parameters are all there, and no others. -/
theorem C54_by_name (e : Effect) (h : e.Makeable) (id : Id) :
    ∃ p r, e.create id = .ok (p, r) ∧ ∀ name,
      (∃ handle, getParameter p name = .ok handle) ↔ name ∈ e.documented.map Prod.fst := by
  obtain ⟨p, r, h1, h2, h3⟩ := create_spec e h id
  refine ⟨p, r, h1, fun name => ⟨?_, ?_⟩⟩
  · rintro ⟨handle, hh⟩
    by_contra hn
    simp only [getParameter, (h3 name hn).1] at hh
    cases hh
  · intro hn
    obtain ⟨range, _, e, _⟩ := h2 name hn
    exact ⟨⟨id, name, range⟩, by simp only [getParameter, e]⟩

/-- C73: the constructors panic for no effect, except for an oscillator with a frequency outside of 20 Hz to 20 kHz. -/
theorem C73_create_iff (e : Effect) (id : Id) : (∃ t, e.create id = .ok t) ↔ e.Makeable := by
  constructor
  · rintro ⟨t, ht⟩
    cases e with
    | oscillator f =>
      by_contra hf
      have : create (oscillator f) id = .error .panic := by
        rw [create, options]
        refine createParameters_panic id _ ⟨_, List.mem_cons_self, ?_⟩
        rw [real_valid]
        exact fun h => hf h.2
      rw [this] at ht
      cases ht
    | _ => trivial
  · intro h
    obtain ⟨p, r, h1, _⟩ := create_spec e h id
    exact ⟨_, h1⟩

/-- C73: whichever parameter of an effect one gets hold of, a change requested through it is addressed to the effect
and finds its parameter on the audio thread. -/
theorem C73_change_finds_parameter (e : Effect) (h : e.Makeable) (id : Id) :
    ∃ p r, e.create id = .ok (p, r) ∧ ∀ name handle, getParameter p name = .ok handle →
      handle.dspId = id ∧ ∃ rt, getRealtimeParameter r handle.parameterId = .ok rt ∧
        rt.parameterId = name ∧ rt.initial = handle.range.default ∧
        handle.range.minimum ≤ rt.initial ∧ rt.initial ≤ handle.range.maximum := by
  obtain ⟨p, r, h1, h2, h3⟩ := create_spec e h id
  refine ⟨p, r, h1, fun name handle hh => ?_⟩
  by_cases hn : name ∈ e.documented.map Prod.fst
  · obtain ⟨range, hv, e1, e2⟩ := h2 name hn
    simp only [getParameter, e1, Except.ok.injEq] at hh
    subst hh
    exact ⟨rfl, ⟨name, range.default⟩, by simp only [getRealtimeParameter, e2], rfl, rfl, hv.2.1, hv.2.2⟩
  · simp only [getParameter, (h3 name hn).1] at hh
    cases hh

/-- C73: every parameter a processor reads is there. -/
theorem C73_reads_found (e : Effect) (h : e.Makeable) (id : Id) :
    ∃ p r, e.create id = .ok (p, r) ∧ ∀ name ∈ e.reads, ∃ rt, getRealtimeParameter r name = .ok rt ∧
      rt.parameterId = name := by
  obtain ⟨p, r, h1, h2, _⟩ := create_spec e h id
  refine ⟨p, r, h1, fun name hn => ?_⟩
  have : name ∈ e.documented.map Prod.fst := by
    cases e <;> simp only [reads, List.mem_cons, List.not_mem_nil, or_false] at hn <;> simp only [documented, List.map, List.mem_cons, List.not_mem_nil, or_false] <;> tauto
  obtain ⟨range, _, _, e2⟩ := h2 name this
  exact ⟨⟨name, range.default⟩, by simp only [getRealtimeParameter, e2], rfl⟩

example : Makeable (oscillator 440) := by constructor <;> norm_num
example : ∃ p r, (oscillator 440).create 3 = .ok (p, r) ∧ ∃ handle, (oscillator 440).access p "gain" = .ok handle ∧
    handle.parameterId = "gain" ∧ handle.dspId = 3 := by
  obtain ⟨p, r, h1, h2⟩ := C54_accessor_partial (oscillator 440) (by constructor <;> norm_num) 3
  exact ⟨p, r, h1, h2 ("gain", "gain") (by simp [documented]) (by decide)⟩
example : ¬ Makeable (oscillator 10) := fun h => by have := h.1; norm_num at this

end Effect
end Rawdio
