import Verif.Lemmas.MixedHistory

/-! Helper lemmas: the levels of a mixer in a session. -/

namespace Rawdio

/-- The levels after some events. -/
def levelsAfter : (Nat → Nat → ℝ) → List (ChainEvent SetLevel) → Nat → Nat → ℝ
  | level, [] => level
  | level, .change _ r :: es => levelsAfter (setLevelOf level r.input r.output r.level.linear) es
  | level, .block _ _ :: es => levelsAfter level es

theorem levelTrack_append (es es' : List (ChainEvent SetLevel)) : ∀ level : Nat → Nat → ℝ,
    levelTrack level (es ++ es') = levelTrack level es ++ levelTrack (levelsAfter level es) es' ∧
      levelsAfter level (es ++ es') = levelsAfter (levelsAfter level es) es' := by
  induction es with
  | nil => intro level; exact ⟨rfl, rfl⟩
  | cons e es ih =>
    intro level
    cases e with
    | change j r => exact ih _
    | block t n =>
      refine ⟨?_, (ih level).2⟩
      simp only [List.cons_append, levelTrack, (ih level).1, levelsAfter, List.append_assoc]

theorem levelTrack_changes (xs : List (Id × SetLevel)) : ∀ level : Nat → Nat → ℝ,
    levelTrack level (xs.map fun x => .change x.1 x.2) = [] ∧
      levelsAfter level (xs.map fun x => .change x.1 x.2) =
        (xs.map Prod.snd).foldl (fun L r => setLevelOf L r.input r.output r.level.linear) level := by
  induction xs with
  | nil => intro level; exact ⟨rfl, rfl⟩
  | cons x xs ih => intro level; exact ih _

theorem levelTrack_blocks (bs : List (Int × Nat)) (level : Nat → Nat → ℝ) :
    levelTrack level (bs.map fun b => .block b.1 b.2) = List.replicate (bs.map Prod.snd).sum level ∧
      levelsAfter level (bs.map fun b => .block b.1 b.2) = level := by
  induction bs with
  | nil => exact ⟨rfl, rfl⟩
  | cons b bs ih =>
    refine ⟨?_, ih.2⟩
    simp only [List.map_cons, levelTrack, ih.1, List.sum_cons, List.replicate_append_replicate]

/-- The levels that are set in the first `n` calls. -/
def levelsSet (i : Id) (changes : Nat → List (Id × MixedRequest)) (n : Nat) : List SetLevel :=
  (List.range n).flatMap fun l => (seenBy i MixedRequest.level? (changes l)).map Prod.snd

theorem levels_history {P : Type} (i : Id) {mf sr : Nat} {changes : Nat → List (Id × MixedRequest)}
    {ks : List (Call ℝ P MixedRequest)} {es : List (ChainEvent MixedRequest)} (h : ChainHistory mf sr changes ks es)
    (level : Nat → Nat → ℝ) :
    levelsAfter level (es.filterMap (ChainEvent.seen i MixedRequest.level?)) =
      (levelsSet i changes ks.length).foldl (fun L r => setLevelOf L r.input r.output r.level.linear) level ∧
    (levelTrack level (es.filterMap (ChainEvent.seen i MixedRequest.level?))).length = framesIn ks ∧
    ∀ j F, framesIn (ks.take j) ≤ F → F < framesIn (ks.take (j + 1)) →
      (levelTrack level (es.filterMap (ChainEvent.seen i MixedRequest.level?))).getD F level =
        (levelsSet i changes (j + 1)).foldl (fun L r => setLevelOf L r.input r.output r.level.linear) level := by
  induction h with
  | nil =>
    refine ⟨rfl, rfl, ?_⟩
    intro j F _ hF
    simp [framesIn] at hF
  | @snoc ks es k bs h hb ih =>
    obtain ⟨i1, i2, i3⟩ := ih
    have hset : (levelsSet i changes (ks.length + 1)) =
        levelsSet i changes ks.length ++ (seenBy i MixedRequest.level? (changes ks.length)).map Prod.snd := by
      rw [levelsSet, List.range_succ, List.flatMap_append]
      simp [levelsSet]
    have htot : (bs.map Prod.snd).sum = k.output.frameCount := by
      rw [← Chain.blocks_total (C := MixedRequest) hb, ChainEvent.total, List.map_map]
      rfl
    have hfr : framesIn (ks ++ [k]) = framesIn ks + k.output.frameCount := by simp [framesIn]
    rw [List.filterMap_append, List.filterMap_append, filterMap_changes, filterMap_blocks]
    have e1 := levelTrack_append (es.filterMap (ChainEvent.seen i MixedRequest.level?) ++
      (seenBy i MixedRequest.level? (changes ks.length)).map fun x => ChainEvent.change x.1 x.2)
      (bs.map fun b => ChainEvent.block b.1 b.2) level
    have e2 := levelTrack_append (es.filterMap (ChainEvent.seen i MixedRequest.level?))
      ((seenBy i MixedRequest.level? (changes ks.length)).map fun x => ChainEvent.change x.1 x.2) level
    rw [(levelTrack_changes _ _).1, (levelTrack_changes _ _).2, List.append_nil, i1, ← List.foldl_append, ← hset] at e2
    rw [e2.1, e2.2, (levelTrack_blocks _ _).1, (levelTrack_blocks _ _).2, htot] at e1
    rw [e1.1, e1.2]
    refine ⟨by rw [List.length_append, List.length_singleton], ?_, ?_⟩
    · rw [List.length_append, i2, List.length_replicate, hfr]
    · intro j F hj hF
      by_cases hjl : j < ks.length
      · rw [List.take_append_of_le_length (by omega)] at hF
        rw [List.take_append_of_le_length (by omega)] at hj
        have hle : framesIn (ks.take (j + 1)) ≤ framesIn ks := by
          have : framesIn ks = framesIn (ks.take (j + 1)) + framesIn (ks.drop (j + 1)) := by
            rw [framesIn, framesIn, framesIn, ← List.sum_append, ← List.map_append, List.take_append_drop]
          omega
        have := i3 j F hj hF
        rw [List.getD_append _ _ _ _ (by omega)]
        exact this
      · have hj' : j = ks.length := by
          by_contra hne
          rw [List.take_of_length_le (by rw [List.length_append, List.length_singleton]; omega)] at hj
          rw [List.take_of_length_le (by rw [List.length_append, List.length_singleton]; omega)] at hF
          omega
        subst hj'
        rw [List.take_left' rfl] at hj
        rw [List.take_of_length_le (by rw [List.length_append, List.length_singleton]), hfr] at hF
        rw [List.getD_append_right _ _ _ _ (by omega), List.getD_eq_getElem?_getD, List.getElem?_replicate, if_pos (by omega),
          Option.getD_some]

end Rawdio
