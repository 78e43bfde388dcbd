import Verif.Lemmas.OscillatorSession
import Verif.Props.MixedNodes
import Verif.Props.Progress
import Verif.Spec.OscillatorSession

/-!
# Oscillators whose frequency is automated, in an engine (C99)
-/

namespace Rawdio
namespace Mixed

open Processor Network

variable {N : Platform} {al : Int → Nat → Nat → Nat → Nat × Nat}

/-- C99: all process calls of a session succeed, if the program is careful (C79) and requests only what the nodes have, and
no oscillator comes to a whole number of cycles at a frame; the frequencies of oscillators may be set and ramped in any
way. -/
theorem C99_runs_partial (hz : ∀ x, N.isZero x = true → x = 0) (ho : ∀ x, N.isOne x = true → x = 1) (mf mc sr : Nat)
    (hm : 0 < mf) (hsr : 0 < sr) (hsr' : sr < 2 ^ 32) (hlen : mf * sr ≤ 2 ^ 33)
    (program : Nat → List (ApiCall MixedNode MixedRequest)) (hP : Program program) (kinds : List (Id × NodeKind))
    (hk : ∀ q ∈ kinds, q.2.Usable) (hmade : NodeKind.Made sr mf kinds (made (program 0)))
    (hr : ∀ q ∈ kinds, ∀ i r, (q.1, r) ∈ requests (program i) → q.2.Takes r)
    (hc : ∀ n, Allowed (fun h c => h.Typed c ∧ h.Careful mc c) Holding.empty ((List.range n).flatMap program))
    (waiting ks : List (Call ℝ MixedNode MixedRequest)) (hks : ks ≠ []) (hv : ∀ k ∈ waiting ++ ks, k.Valid)
    (hd : Delivered program waiting ks)
    (hw : ∀ es, ChainHistory mf sr (fun i => requests (program i)) ks es →
      ∀ q ∈ kinds, q.2.NeverWhole sr (framesIn ks) q.1 es) :
    ∃ E, calls (MixedNode.ops N al) (new sr mc mf) (waiting ++ ks) = .ok E := by
  refine C86_succeeds _ mf mc sr hm program hP hc waiting ks hks hv hd ?_
  intro es hes d hdm x
  have hev := Sampler.history_events hm hes
  have htot := Chain.history_total hes
  obtain ⟨j, hj, rfl⟩ := List.mem_iff_getElem.mp hdm
  have hl := hmade.length_eq
  have hmk := (List.forall₂_iff_get.mp hmade).2 j (by omega) hj
  simp only [List.get_eq_getElem] at hmk
  have hq := List.getElem_mem (l := kinds) (n := j) (by omega)
  have hu := hk _ hq
  have hrq := hr _ hq
  have hwq := hw es hes _ hq
  obtain ⟨⟨i, k⟩, hik⟩ : ∃ q, q = kinds[j] := ⟨_, rfl⟩
  rw [← hik] at hmk hu hrq hwq
  dsimp only at hmk hu hrq hwq
  obtain ⟨d, hd'⟩ : ∃ d, d = (made (program 0))[j] := ⟨_, rfl⟩
  rw [← hd'] at hmk ⊢
  have hid : d.id = i := by
    obtain ⟨d', m1, m2, _⟩ := NodeKind.make_ok (sr := sr) hm i k hu
    rw [m1] at hmk
    injection hmk with hmk
    rw [← hmk, m2]
  by_cases hosc : ∃ f n table, k = .effect (.oscillator f n table)
  · obtain ⟨f, n, table, rfl⟩ := hosc
    have hmk0 : (FxKind.oscillator f n table).make sr mf i = .ok
        ⟨i, 0, n, ⟨0, n, .oscillator (Oscillator.new table), FxKind.parameters [("frequency", f), ("gain", 1)]⟩⟩ := rfl
    have hdw : d = (⟨i, 0, n, ⟨0, n, .oscillator (Oscillator.new table),
        FxKind.parameters [("frequency", f), ("gain", 1)]⟩⟩ : Dsp FxNode).within .effect := by
      cases hmk
      rfl
    subst hdw
    have hown : ∀ r, .change i r ∈ es → ∃ c, r = .parameter c ∧ c.name ∈ (FxKind.oscillator f n table).names := by
      intro r hre
      obtain ⟨m, hm'⟩ := hev _ hre
      have := hrq m r hm'
      cases r with
      | parameter c => exact ⟨c, rfl, this⟩
      | _ => cases this
    obtain ⟨y, d', h⟩ := (Fx.oscillator_run (N := N) hz ho hsr f n table hu i _ hmk0
      (es.filterMap (ChainEvent.seen i MixedRequest.parameter?)) (by
        intro r hre
        obtain ⟨_, r', e1, e2⟩ := mem_seen hre
        obtain ⟨c, rfl, hc⟩ := hown r' e2
        injection e1 with e1
        subst e1
        exact hc) (by
        rw [total_seen, htot]
        exact fun F hF => (hwq F hF).1) x).2 (by
        rw [total_seen, htot]
        exact fun F hF => (hwq F hF).2)
    refine ⟨_, (MixedNode.embeds_effect N al).chainRun_ok es (fun r hre => ?_) h⟩
    obtain ⟨c, rfl, _⟩ := hown r hre
    rfl
  · have hren : k.Renders sr := by
      cases k with
      | effect k =>
        cases k with
        | oscillator f n table => exact absurd ⟨f, n, table, rfl⟩ hosc
        | _ => trivial
      | _ => trivial
    have hall : ∀ r, k.Takes r → k.Allows r := by
      intro r h
      cases k with
      | effect k =>
        cases k with
        | oscillator f n table => exact absurd ⟨f, n, table, rfl⟩ hosc
        | _ => cases r <;> exact h
      | _ => exact h
    have H := NodeKind.mixed_healthy (N := N) (al := al) hz ho hsr hlen [(i, k)]
    obtain ⟨y, d', h⟩ := H.chainRun es (d := d) x ⟨k, by simp [hid], NodeKind.new_sound hm hsr hsr' hu hren hmk⟩ (by
      intro e he
      have := hev e he
      cases e with
      | change i' c =>
        intro hi k' hk'
        rw [List.mem_singleton] at hk'
        cases hk'
        obtain ⟨m, hm'⟩ := this
        exact hall c (hrq m c hm')
      | block t n => exact this)
    exact ⟨_, h⟩

/-- C99 fails at a whole number of cycles: a session in which an oscillator comes to one at some frame fails, whatever the
other nodes are and however the stream is divided. -/
theorem C99_whole_violated (hz : ∀ x, N.isZero x = true → x = 0) (ho : ∀ x, N.isOne x = true → x = 1) (mf mc sr : Nat)
    (hm : 0 < mf) (hsr : 0 < sr) (program : Nat → List (ApiCall MixedNode MixedRequest)) (hP : Program program)
    (hp : Plain (made (program 0)) (links (program 0)) (input (program 0))) (i : Id) (f : ℝ) (n : Nat) (table : List ℝ)
    (hu : (FxKind.oscillator f n table).Usable)
    (hmade : ∃ d ∈ made (program 0), (NodeKind.effect (.oscillator f n table)).make sr mf i = .ok d)
    (hr : ∀ j r, (i, MixedRequest.parameter r) ∈ requests (program j) → r.name ∈ (FxKind.oscillator f n table).names)
    (waiting ks : List (Call ℝ MixedNode MixedRequest)) (hv : ∀ k ∈ waiting ++ ks, k.Valid)
    (hd : Delivered program waiting ks)
    (hw : ∀ es, ChainHistory mf sr (fun i => requests (program i)) ks es →
      ∀ v, v = (FxKind.oscillator f n table).track sr (es.filterMap (ChainEvent.seen i MixedRequest.parameter?)) i "frequency" →
        (∀ F < framesIn ks, 0 < v F) ∧ ∃ F < framesIn ks, Oscillator.Whole (Oscillator.cycles v sr (F + 1)))
    (E : Processor ℝ MixedNode) : calls (MixedNode.ops N al) (new sr mc mf) (waiting ++ ks) ≠ .ok E := by
  intro hE
  obtain ⟨es, sig, h1, h2, _⟩ := C86_network (MixedNode.ops N al) mf mc sr hm program hP hp waiting ks hv hd E hE
  obtain ⟨w1, w2⟩ := hw es h1 _ rfl
  have hev := Sampler.history_events hm h1
  have htot := Chain.history_total h1
  obtain ⟨d, hdm, hdk⟩ := hmade
  obtain ⟨d', h⟩ := h2 d hdm
  cases hdk
  have hmk0 : (FxKind.oscillator f n table).make sr mf i = .ok
      ⟨i, 0, n, ⟨0, n, .oscillator (Oscillator.new table), FxKind.parameters [("frequency", f), ("gain", 1)]⟩⟩ := rfl
  obtain ⟨d', h'⟩ := (MixedNode.embeds_effect N al).chainRun es (d := (⟨i, 0, n, ⟨0, n, .oscillator (Oscillator.new table),
        FxKind.parameters [("frequency", f), ("gain", 1)]⟩⟩ : Dsp FxNode)) h
  have := (Fx.oscillator_run (N := N) hz ho hsr f n table hu i _ hmk0
      (es.filterMap (ChainEvent.seen i MixedRequest.parameter?)) (by
        intro r hre
        obtain ⟨_, r', e1, e2⟩ := mem_seen hre
        obtain ⟨m, hm'⟩ := hev _ e2
        cases r' with
        | parameter c =>
          injection e1 with e1
          subst e1
          exact hr m c hm'
        | _ => cases e1) (by rw [total_seen, htot]; exact w1)
      (arriving (links (program 0)) (input (program 0)) (sessionInput true mc ks) sig i)).1 (by rw [total_seen, htot]; exact w2)
  rw [this] at h'
  cases h'

end Mixed
end Rawdio
