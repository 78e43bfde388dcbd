import Verif.Spec.SampleFloat
import Verif.Lemmas.RenderBlock
import Mathlib.Tactic.Linarith
import Mathlib.Tactic.Positivity

/-! # Lemmas about sums of `f32` samples -/

namespace Rawdio
namespace Sample32

theorem add_val (a b : Sample32) : (a + b).1 = Float32.round (a.1 + b.1) := rfl

theorem zero_val : (0 : Sample32).1 = 0 := rfl

instance : AddZeroClass Sample32 where
  zero_add a := Subtype.ext (by rw [add_val, zero_val, zero_add, round_of_rep a.2])
  add_zero a := Subtype.ext (by rw [add_val, zero_val, add_zero, round_of_rep a.2])

theorem add_comm' (a b : Sample32) : a + b = b + a :=
  Subtype.ext (by rw [add_val, add_val, add_comm])

theorem mixLevel_nonneg (l : List Sample32) : 0 ≤ mixLevel l := by
  unfold mixLevel
  apply List.sum_nonneg
  intro x hx
  obtain ⟨y, _, rfl⟩ := List.mem_map.mp hx
  exact abs_nonneg _

theorem step {A s S x k d : ℚ} (hd : d = A * (1 / 2 ^ 23) + 1 / 2 ^ 149) (hk : k ≤ 2 ^ 20)
    (hs : |s - S| ≤ k * d) (hA : |S + x| ≤ A) : |Float32.round (s + x) - (S + x)| ≤ (k + 1) * d := by
  have h := Float32.round_rel (s + x)
  have hA0 : 0 ≤ A := (abs_nonneg _).trans hA
  have hd0 : 0 ≤ d := by rw [hd]; positivity
  have h1 : |s + x| ≤ A + k * d := by
    have := abs_add_le (S + x) (s - S)
    rw [show S + x + (s - S) = s + x by ring] at this
    linarith
  have h2 : k * d ≤ 2 ^ 20 * d := mul_le_mul_of_nonneg_right hk hd0
  have h3 := abs_add_le (Float32.round (s + x) - (s + x)) (s - S)
  rw [show Float32.round (s + x) - (s + x) + (s - S) = Float32.round (s + x) - (S + x) by ring] at h3
  have h4 : (1 : ℚ) / 2 ^ 149 = 2 * (1 / 2 ^ 150) := by norm_num
  rw [h4] at hd
  have h5 : (0 : ℚ) ≤ 1 / 2 ^ 150 := by positivity
  generalize (1 : ℚ) / 2 ^ 150 = u at *
  norm_num at *
  linarith

theorem mix_from {A d : ℚ} (hd : d = A * (1 / 2 ^ 23) + 1 / 2 ^ 149) :
    ∀ (l : List Sample32) (s : Sample32) (S : ℚ) (k : Nat), k + l.length ≤ 2 ^ 20 → |s.1 - S| ≤ k * d →
      |S| + mixLevel l ≤ A →
      |(l.foldl (· + ·) s).1 - (S + exactMix l)| ≤ ((k + l.length : Nat) : ℚ) * d
  | [], s, S, k, _, hs, _ => by simpa [exactMix] using hs
  | x :: l, s, S, k, hk, hs, hA => by
    have hl := mixLevel_nonneg l
    have e1 : mixLevel (x :: l) = |x.1| + mixLevel l := by simp [mixLevel]
    have e2 : exactMix (x :: l) = x.1 + exactMix l := by simp [exactMix]
    rw [List.length_cons] at hk
    have ha := abs_add_le S x.1
    have h1 := step (x := x.1) hd (k := k) (by exact_mod_cast (by omega : k ≤ 2 ^ 20)) hs (by linarith)
    have := mix_from hd l (s + x) (S + x.1) (k + 1) (by omega) (by push_cast; exact h1) (by linarith)
    rw [List.foldl_cons, e2, List.length_cons, ← add_assoc]
    rw [show k + (l.length + 1) = k + 1 + l.length by omega]
    exact this

theorem mix_near (l : List Sample32) (hl : l.length ≤ 2 ^ 20) :
    |(l.foldl (· + ·) 0).1 - exactMix l| ≤ l.length * (mixLevel l * (1 / 2 ^ 23) + 1 / 2 ^ 149) := by
  have := mix_from (A := mixLevel l) rfl l 0 0 0 (by omega) (by simp [zero_val]) (by simp)
  simpa using this

theorem mix_pair : ∀ {l l' : List Sample32}, l.Perm l' → l.length ≤ 2 → l.foldl (· + ·) 0 = l'.foldl (· + ·) 0
  | [], _, h, _ => by rw [h.symm.eq_nil]
  | [a], _, h, _ => by rw [List.singleton_perm.mp h]
  | [a, b], [x, y], h, _ => by
    have hx : x = a ∨ x = b := by simpa using h.symm.subset (List.mem_cons_self ..)
    rcases hx with rfl | rfl
    · have := List.singleton_perm_singleton.mp ((List.perm_cons _).mp h)
      rw [this]
    · have := List.singleton_perm_singleton.mp ((List.perm_cons _).mp ((List.Perm.swap ..).trans h))
      rw [← this]
      simp [add_comm']
  | [_, _], [], h, _ => by simpa using h.length_eq
  | [_, _], [_], h, _ => by simpa using h.length_eq
  | [_, _], _ :: _ :: _ :: _, h, _ => by simpa using h.length_eq
  | _ :: _ :: _ :: _, _, _, hl => by simp at hl

end Sample32

namespace DspGraph

open Graph

variable {P C : Type}

/-- Sources come before what they feed. -/
theorem ranked {S : Type} [Zero S] [Add S] {ops : NodeOps S P C} {mf mc sr : Nat} (hm : 0 < mf) {G G' : DspGraph S P}
    (hG : Reachable ops mf mc sr G) {p : Patch Connection} (hp : G.graph.Shows p) {env : Env} {input output o' : Buf S}
    {t : Int} (hv : ValidBlock input output) (h : G.process ops env input output t = .ok (o', G')) :
    ∃ rank : Id → Nat, ∀ k ∈ p.conns, k.src ∈ p.nodes ∧ rank k.src < rank k.dst := by
  obtain ⟨q, hq⟩ := reachable_inv hm hG
  obtain ⟨sig, hd⟩ := process_ok hq hv.inWF hv.outWF hv.writable hv.nonempty hm hv.enough h
  have hqs := hq.rep.shows
  have hvo := (hd.inv.sorted hd.clean).1
  refine ⟨fun i => G'.order.idxOf i, fun k hk => ?_⟩
  obtain ⟨c, hc, hs, ht⟩ := TopologicalSort.joined_of_shows hp hqs (a := k.src) (b := k.dst) ⟨k, hk, rfl, rfl⟩
  refine ⟨?_, ?_⟩
  · rw [← hs, hp.nodes, ← hqs.nodes]
    exact (hq.rep.ends c hc).1
  · obtain ⟨u, v, w, e⟩ := hvo.sorted c hc
    rw [hs, ht] at e
    have hn := hvo.nodup
    rw [e] at hn ⊢
    have h1 : k.src ∉ u := by
      intro hh
      exact (List.nodup_append.mp hn).2.2 _ hh _ (List.mem_cons_self ..) rfl
    have h2 : k.dst ∉ u := by
      intro hh
      exact (List.nodup_append.mp hn).2.2 _ hh k.dst (by simp) rfl
    have h3 : k.src ≠ k.dst := by
      intro hh
      have := (List.nodup_cons.mp (List.nodup_append.mp hn).2.1).1
      exact this (by rw [hh]; simp)
    show List.idxOf _ _ < List.idxOf _ _
    rw [List.idxOf_append_of_notMem h1, List.idxOf_append_of_notMem h2, List.idxOf_cons_self,
      List.idxOf_cons_ne _ h3]
    omega

/-- Two blocks in which every node receives the same whenever its sources give the same. -/
theorem rendered_agree {S : Type} [Zero S] {ops : NodeOps S P C} {p q : Patch Connection} {before before' after after' : Id → Option (Dsp P)}
    {n sr : Nat} {t : Int} {x y : Signals S → Id → Nat → Nat → S} {sig sig' : Signals S} {rank : Id → Nat}
    (hrank : ∀ k ∈ p.conns, k.src ∈ p.nodes ∧ rank k.src < rank k.dst) (hn : p.nodes = q.nodes)
    (hb : ∀ i ∈ p.nodes, before i = before' i)
    (hxy : ∀ i ∈ p.nodes, (∀ k ∈ p.at' i .incoming, sig k.src = sig' k.src) → x sig i = y sig' i)
    (h : Rendered ops p before n sr t x sig after) (h' : Rendered ops q before' n sr t y sig' after') :
    ∀ i ∈ p.nodes, sig i = sig' i ∧ after i = after' i := by
  have key : ∀ r i, rank i < r → i ∈ p.nodes → sig i = sig' i ∧ after i = after' i := by
    intro r
    induction r with
    | zero => intro i hi; omega
    | succ r ih =>
      intro i hi him
      obtain ⟨d, out, st, a1, a2, a3, a4⟩ := h.run i him
      obtain ⟨d', out', st', b1, b2, b3, b4⟩ := h'.run i (hn ▸ him)
      rw [← hb i him, a1] at b1
      injection b1 with b1
      subst b1
      have hin := hxy i him (fun k hk => by
        obtain ⟨hk1, hk2⟩ := mem_at.mp hk
        have hk2 : k.dst = i := hk2
        obtain ⟨k3, k4⟩ := hrank k hk1
        exact (ih k.src (by rw [hk2] at k4; omega) k3).1)
      rw [hin, b2] at a2
      injection a2 with a2
      obtain ⟨rfl, rfl⟩ := Prod.mk.inj a2
      exact ⟨by funext c f; rw [a4, b4], by rw [a3, b3]⟩
  exact fun i => key _ i (Nat.lt_succ_self _)

/-- What a node with at most two connections receives does not depend on their order. -/
theorem received_perm {p q : Patch Connection} (hpq : p.conns.Perm q.conns) (system : Id → Nat → Nat → Sample32)
    {sig sig' : Signals Sample32} (i : Id) (h2 : (p.at' i .incoming).length ≤ 2)
    (h1 : 1 < (p.at' i .incoming).length → ∀ c f, system i c f = 0)
    (hs : ∀ k ∈ p.at' i .incoming, sig k.src = sig' k.src) : p.received system sig i = q.received system sig' i := by
  have hperm : (p.at' i .incoming).Perm (q.at' i .incoming) := hpq.filter _
  have harr : ∀ c f, (p.arriving sig i c f).Perm (q.arriving sig' i c f) := by
    intro c f
    have : p.arriving sig i c f = p.arriving sig' i c f := by
      unfold Patch.arriving
      apply List.map_congr_left
      intro k hk
      rw [hs k (List.mem_filter.mp hk).1]
    rw [this]
    exact (hperm.filter _).map _
  have hlen : ∀ c f, (p.arriving sig i c f).length ≤ 2 := by
    intro c f
    unfold Patch.arriving
    rw [List.length_map]
    exact (List.length_filter_le ..).trans h2
  funext c f
  have ha := Sample32.mix_pair (harr c f) (hlen c f)
  unfold Patch.received
  cases hp : p.at' i .incoming with
  | nil =>
    rw [hp] at hperm
    rw [hperm.symm.eq_nil]
  | cons k ks =>
    cases ks with
    | nil =>
      rw [hp] at hperm
      have hq := List.singleton_perm.mp hperm
      rw [← hq]
      have hk := hs k (by rw [hp]; simp)
      simp only [true_and]
      split_ifs with hh hf hf
      · rw [hk]
      · exact ha
      · have e1 : p.arriving sig i c f = [] := by simp [Patch.arriving, hp, hf]
        have e2 : q.arriving sig' i c f = [] := by simp [Patch.arriving, ← hq, hf]
        rw [e1, e2]
    | cons k' ks =>
      have h0 := h1 (by rw [hp]; simp) c f
      have hl := hperm.length_eq
      rw [hp] at hl
      cases hq : q.at' i .incoming with
      | nil => rw [hq] at hl; simp at hl
      | cons m ms =>
        cases ms with
        | nil => rw [hq] at hl; simp at hl
        | cons m' ms => simpa [h0] using ha

end DspGraph
end Rawdio
