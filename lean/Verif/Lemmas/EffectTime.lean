import Verif.Lemmas.Effects
import Verif.Lemmas.GainTime

/-! Helper lemmas: when the parameters of effects change. -/

namespace Rawdio
namespace Fx

open RealtimeParameter

/-- The parameter after some events. -/
noncomputable def parameterAfter (sr : Nat) (i : Id) (name : String) :
    RealtimeParameter ℝ → List (ChainEvent ParameterRequest) → RealtimeParameter ℝ
  | p, [] => p
  | p, .change j r :: es => parameterAfter sr i name (if j = i ∧ r.name = name then r.apply p else p) es
  | p, .block t n :: es => parameterAfter sr i name (p.process realArith t n sr).2 es

theorem track_append (sr : Nat) (i : Id) (name : String) (es fs : List (ChainEvent ParameterRequest)) :
    ∀ p, parameterTrack sr i name p (es ++ fs) =
        parameterTrack sr i name p es ++ parameterTrack sr i name (parameterAfter sr i name p es) fs ∧
      parameterAfter sr i name p (es ++ fs) = parameterAfter sr i name (parameterAfter sr i name p es) fs := by
  induction es with
  | nil => intro p; exact ⟨rfl, rfl⟩
  | cons e es ih =>
    intro p
    cases e with
    | change j r => exact ih _
    | block t n =>
      obtain ⟨h1, h2⟩ := ih (p.process realArith t n sr).2
      refine ⟨?_, h2⟩
      rw [List.cons_append, parameterTrack, h1, parameterTrack, List.append_assoc]
      rfl

theorem track_blocks (sr : Nat) (i : Id) (name : String) (bs : List (Int × Nat)) :
    ∀ p, parameterTrack sr i name p (bs.map fun b => .block b.1 b.2) = (processAll realArith sr p bs).1 ∧
      parameterAfter sr i name p (bs.map fun b => .block b.1 b.2) = (processAll realArith sr p bs).2 := by
  induction bs with
  | nil => intro p; exact ⟨rfl, rfl⟩
  | cons b bs ih =>
    intro p
    obtain ⟨h1, h2⟩ := ih (p.process realArith b.1 b.2 sr).2
    simp only [List.map_cons, parameterTrack, parameterAfter, processAll, h1, h2, and_self]

theorem track_requests (sr : Nat) (i : Id) (name : String) (cs : List (Id × ParameterRequest)) :
    ∀ p (qs : List (ParameterChange ℝ)), cs.filter (fun x => x.1 = i ∧ x.2.name = name) =
      qs.map (fun c => (i, ParameterRequest.change name c)) →
    parameterTrack sr i name p (cs.map fun x => .change x.1 x.2) = [] ∧
      parameterAfter sr i name p (cs.map fun x => .change x.1 x.2) = qs.foldl addChange p := by
  induction cs with
  | nil =>
    intro p qs h
    cases qs with
    | nil => exact ⟨rfl, rfl⟩
    | cons q qs => simp at h
  | cons c cs ih =>
    intro p qs h
    simp only [List.map_cons, parameterTrack, parameterAfter]
    by_cases hc : c.1 = i ∧ c.2.name = name
    · rw [List.filter_cons_of_pos (by simpa using hc)] at h
      cases qs with
      | nil => simp at h
      | cons q qs =>
        rw [List.map_cons, List.cons.injEq] at h
        rw [if_pos hc, h.1]
        exact ih _ qs h.2
    · rw [List.filter_cons_of_neg (by simpa using hc)] at h
      rw [if_neg hc]
      exact ih _ qs h

/-- The values of a parameter of which only changes are requested. -/
theorem track_values {S P : Type} {mf sr : Nat} (i : Id) (name : String) (p : RealtimeParameter ℝ)
    {changes : Nat → List (Id × ParameterRequest)} {own : Nat → List (ParameterChange ℝ)}
    (ho : ∀ j, (changes j).filter (fun x => x.1 = i ∧ x.2.name = name) =
      (own j).map fun c => (i, ParameterRequest.change name c))
    {ks : List (Call S P ParameterRequest)} {es : List (ChainEvent ParameterRequest)}
    (h : ChainHistory mf sr changes ks es) :
    ∃ hist, GainHistory mf sr own ks hist ∧ parameterTrack sr i name p es = (gainValues sr p hist).1 ∧
      parameterAfter sr i name p es = (gainValues sr p hist).2 := by
  induction h with
  | nil => exact ⟨[], ⟨rfl, fun i k h h1 => by simp at h1⟩, rfl, rfl⟩
  | @snoc ks es k bs h hb ih =>
    obtain ⟨hist, h1, h2, h3⟩ := ih
    refine ⟨_, Gain.history_snoc h1 hb, ?_⟩
    rw [Gain.gainValues_snoc]
    obtain ⟨a1, a2⟩ := track_append sr i name es ((changes ks.length).map (fun x => .change x.1 x.2) ++
      bs.map fun b => .block b.1 b.2) p
    obtain ⟨b1, b2⟩ := track_append sr i name ((changes ks.length).map (fun x => .change x.1 x.2))
      (bs.map fun b => .block b.1 b.2) (parameterAfter sr i name p es)
    obtain ⟨c1, c2⟩ := track_requests sr i name (changes ks.length) (parameterAfter sr i name p es) _ (ho ks.length)
    rw [List.append_assoc, a1, a2, b1, b2, c1, c2, (track_blocks ..).1, (track_blocks ..).2, h2, h3]
    exact ⟨rfl, rfl⟩

end Fx
end Rawdio
