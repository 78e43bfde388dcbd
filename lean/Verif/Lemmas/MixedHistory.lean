import Verif.Lemmas.MixedNodes

/-! Helper lemmas: what one node sees of a session of nodes of different kinds. -/

namespace Rawdio

variable {S P P' C D : Type}

/-- A call as far as its frames. -/
def Call.bare (k : Call S P D) : Call S P' C := ⟨[], k.input, k.output, k.env⟩

/-- The requests that node `i` sees. -/
def seenBy (i : Id) (own : D → Option C) (xs : List (Id × D)) : List (Id × C) :=
  xs.filterMap fun x => if x.1 = i then (own x.2).map fun c => (i, c) else none

theorem framesIn_bare (ks : List (Call S P D)) : framesIn (ks.map (Call.bare : Call S P D → Call S P' C)) = framesIn ks := by
  rw [framesIn, framesIn, List.map_map]
  rfl

theorem filterMap_changes (i : Id) (own : D → Option C) (xs : List (Id × D)) :
    (xs.map fun x => ChainEvent.change x.1 x.2).filterMap (ChainEvent.seen i own) =
      (seenBy i own xs).map fun x => ChainEvent.change x.1 x.2 := by
  rw [seenBy, List.filterMap_map, List.map_filterMap]
  congr 1
  funext x
  simp only [Function.comp_apply, ChainEvent.seen]
  by_cases hx : x.1 = i
  · rw [if_pos hx, if_pos hx]
    cases own x.2 <;> rfl
  · rw [if_neg hx, if_neg hx]
    rfl

theorem filterMap_blocks (i : Id) (own : D → Option C) (bs : List (Int × Nat)) :
    (bs.map fun b => (ChainEvent.block b.1 b.2 : ChainEvent D)).filterMap (ChainEvent.seen i own) =
      bs.map fun b => ChainEvent.block b.1 b.2 := by
  rw [List.filterMap_map]
  exact List.filterMap_eq_map' (f := fun b : Int × Nat => (ChainEvent.block b.1 b.2 : ChainEvent C)) ▸ rfl

/-- A session as one node sees it. -/
theorem history_seen (i : Id) (own : D → Option C) {mf sr : Nat} {changes : Nat → List (Id × D)}
    {ks : List (Call S P D)} {es : List (ChainEvent D)} (h : ChainHistory mf sr changes ks es) :
    ChainHistory mf sr (fun j => seenBy i own (changes j)) (ks.map (Call.bare : Call S P D → Call S P' C))
      (es.filterMap (ChainEvent.seen i own)) := by
  induction h with
  | nil => exact .nil
  | @snoc ks es k bs h hb ih =>
    rw [List.filterMap_append, List.filterMap_append, filterMap_changes, filterMap_blocks, List.map_append]
    have := ChainHistory.snoc (Call.bare k : Call S P' C) bs ih (by rw [framesIn_bare]; exact hb)
    rw [List.length_map] at this
    exact this

end Rawdio
