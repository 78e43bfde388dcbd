import Verif.Lemmas.Chain

/-! Helper lemmas about everything that a row of nodes plays in a session. -/

namespace Rawdio
namespace Chain

open Processor

variable {S P C : Type}

theorem plays_prefix {fromInput : Bool} {ds : List (Dsp P)} {changes : Nat → List (Id × C)} {ks ls : List (Call S P C)}
    (hp : PlaysChain fromInput ds changes (ks ++ ls)) : PlaysChain fromInput ds changes ks := by
  intro i k' hk'
  refine hp i k' ?_
  rw [List.getElem?_append_left (by by_contra hn; rw [List.getElem?_eq_none (by omega)] at hk'; cases hk')]
  exact hk'

/-- The output of every call of a session. -/
theorem session_outputs [AddZeroClass S] {ops : NodeOps S P C} {fromInput : Bool} {mf mc sr : Nat} (hm : 0 < mf)
    {ds0 : List (Dsp P)} (hne0 : ds0 ≠ []) {changes : Nat → List (Id × C)} (ks : List (Call S P C)) :
    ∀ E : Processor S P, (∀ k ∈ ks, k.Valid) → PlaysChain fromInput ds0 changes ks →
    calls ops (new sr mc mf) ks = .ok E →
    ∃ V es y ds, ds ≠ [] ∧ Looks E mf mc sr V ∧ EInv ops mf mc sr E ∧ ChainHistory mf sr changes ks es ∧
      chainRun ops sr ds0 es (sessionInput fromInput mc ks) = .ok (y, ds) ∧
      (if ks.length = 0 then V = View.empty ∧ ds = ds0 else Playing fromInput ds (framesIn ks) V) ∧
      ∀ i k E1 o E2, ks[i]? = some k → calls ops (new sr mc mf) (ks.take i) = .ok E1 →
        E1.process ops k.env k.commands k.input k.output = .ok (o, E2) →
        ∀ c f, c < k.output.channelCount → f < k.output.frameCount →
          o.sample? c f = some (if c < mc then y c (framesIn (ks.take i) + f) else 0) := by
  induction ks using List.reverseRecOn with
  | nil =>
    intro E _ _ h
    injection h with h
    subst h
    exact ⟨_, [], silence, ds0, hne0, looks_new .., einv_new .., .nil, rfl, by simp, by simp⟩
  | append_singleton ks k ih =>
    intro E hk hp h
    obtain ⟨E1, h1, h2⟩ := (calls_append _ _ _ _).mp h
    obtain ⟨V, es, y, ds, hne, i1, i2, i3, i4, i5, i6⟩ := ih E1 (fun l hl => hk l (by simp [hl])) (plays_prefix hp) h1
    obtain ⟨o, E2, h3, h4⟩ := calls_cons h2
    injection h4 with h4
    subst h4
    obtain ⟨W, w1, w2, w3, w4⟩ := process_looks hm i2 i1 (hk k (by simp)) h3
    have hV : if (ks.length == 0) = true then V = View.empty ∧ ds = ds0 ∧ framesIn ks = 0
        else Playing fromInput ds (framesIn ks) V := by
      by_cases h0 : ks.length = 0
      · rw [if_pos h0] at i5
        obtain rfl := List.length_eq_zero_iff.mp h0
        rw [if_pos (by simp)]
        exact ⟨i5.1, i5.2, rfl⟩
      · rw [if_neg h0] at i5
        rwa [if_neg (by simpa using h0)]
    obtain ⟨bs, b1, z, ds', b2, b3, b4, b5⟩ := step_stream hm hne hV (cs := changes ks.length)
      (by simpa [ApiCall.command] using hp ks.length k (by simp)) w1
    have hH := ChainHistory.snoc k bs i3 b1
    rw [List.append_assoc] at hH
    refine ⟨W, _, _, ds', b2, w2, w3, hH, run_snoc hne0 hne (history_total i3) ?_ i4 b3, ?_, ?_⟩
    · have := history_total hH
      rw [Gain.framesIn_append] at this
      have h4 := history_total i3
      simp only [ChainEvent.total, List.map_append, List.sum_append] at *
      omega
    · rw [if_neg (by simp), Gain.framesIn_append]
      exact b4
    · intro i k' F1 o' F2 hk' hF ho c f hc hf
      rcases Nat.lt_trichotomy i ks.length with hi | hi | hi
      · rw [List.getElem?_append_left hi] at hk'
        rw [List.take_append_of_le_length hi.le] at hF ⊢
        rw [i6 i k' F1 o' F2 hk' hF ho c f hc hf]
        have hlt : framesIn (ks.take i) + f < framesIn ks := by
          have e : ks = ks.take i ++ k' :: ks.drop (i + 1) := by
            conv_lhs => rw [← List.take_append_drop i ks]
            rw [List.drop_eq_getElem_cons hi]
            rw [List.getElem?_eq_getElem hi] at hk'
            injection hk' with hk'
            rw [hk']
          conv_rhs => rw [e]
          simp only [framesIn, List.map_append, List.sum_append, List.map_cons, List.sum_cons]
          omega
        simp only [followed]
        rw [if_pos hlt]
      · subst hi
        rw [List.getElem?_append_right (le_refl _), Nat.sub_self] at hk'
        injection hk' with hk'
        subst hk'
        rw [List.take_append_of_le_length (le_refl _), List.take_length] at hF ⊢
        rw [h1] at hF
        injection hF with hF
        subst hF
        rw [h3] at ho
        injection ho with ho
        injection ho with ho1 ho2
        subst ho1
        rw [b5 c f hc hf]
        simp only [followed]
        rw [if_neg (by omega : ¬ framesIn ks + f < framesIn ks), Nat.add_sub_cancel_left]
      · rw [List.getElem?_eq_none (by simp; omega)] at hk'
        cases hk'

end Chain
end Rawdio
