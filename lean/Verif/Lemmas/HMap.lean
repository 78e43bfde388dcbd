import Mathlib.Data.List.Nodup
import Verif.Model.HMap

/-! Helper lemmas about hash maps. -/

namespace Rawdio
namespace HMap

variable {K V W : Type} [DecidableEq K]

@[simp] theorem get?_nil (i : K) : get? ([] : HMap K V) i = none := rfl

theorem get?_cons (k : K) (v : V) (m : HMap K V) (i : K) :
    get? ((k, v) :: m) i = if k = i then some v else get? m i := rfl

theorem get?_remove (m : HMap K V) (i j : K) :
    (m.remove i).get? j = if j = i then none else m.get? j := by
  induction m with
  | nil => simp [remove]
  | cons e m ih =>
    obtain ⟨k, v⟩ := e
    simp only [remove] at ih ⊢
    rw [List.filter_cons]
    by_cases hk : k = i
    · subst hk
      simp only [bne_self_eq_false, Bool.false_eq_true, if_false]
      rw [ih, get?_cons]
      by_cases hj : j = k
      · simp [hj]
      · rw [if_neg hj, if_neg hj, if_neg (fun h => hj h.symm)]
    · have : (k != i) = true := by simpa using hk
      simp only [this, if_true]
      rw [get?_cons, get?_cons, ih]
      by_cases hj : k = j
      · subst hj; simp [hk]
      · rw [if_neg hj, if_neg hj]

theorem get?_insert (m : HMap K V) (i j : K) (v : V) :
    (m.insert i v).get? j = if j = i then some v else m.get? j := by
  simp only [insert]
  rw [get?_cons, get?_remove]
  by_cases h : i = j
  · subst h; simp
  · rw [if_neg h, if_neg (fun h' => h h'.symm), if_neg (fun h' => h h'.symm)]

theorem get?_update (m : HMap K V) (i j : K) (f : V → V) :
    (m.update i f).get? j = if j = i then (m.get? j).map f else m.get? j := by
  induction m with
  | nil => simp [update]
  | cons e m ih =>
    obtain ⟨k, v⟩ := e
    simp only [update, List.map_cons] at ih ⊢
    by_cases hk : k = i
    · subst hk
      simp only [if_true]
      rw [get?_cons, get?_cons, ih]
      by_cases hj : k = j
      · subst hj; simp
      · rw [if_neg hj, if_neg (fun h => hj h.symm), if_neg hj,
          if_neg (fun h => hj h.symm)]
    · simp only [hk, if_false]
      rw [get?_cons, get?_cons, ih]
      by_cases hj : k = j
      · subst hj; simp [hk]
      · rw [if_neg hj, if_neg hj]

theorem get?_mapVals (m : HMap K V) (f : V → W) (j : K) :
    (m.mapVals f).get? j = (m.get? j).map f := by
  induction m with
  | nil => rfl
  | cons e m ih =>
    obtain ⟨k, v⟩ := e
    simp only [mapVals, List.map_cons] at ih ⊢
    rw [get?_cons, get?_cons, ih]
    split_ifs <;> rfl

theorem mem_keys {m : HMap K V} {i : K} : i ∈ m.keys ↔ (m.get? i).isSome := by
  induction m with
  | nil => simp [keys]
  | cons e m ih =>
    obtain ⟨k, v⟩ := e
    simp only [keys, List.map_cons, List.mem_cons] at ih ⊢
    rw [get?_cons, ih]
    by_cases h : k = i
    · subst h; simp
    · rw [if_neg h]
      constructor
      · rintro (h1 | h1)
        · exact absurd h1.symm h
        · exact h1
      · exact Or.inr

theorem keys_remove (m : HMap K V) (i : K) : (m.remove i).keys = m.keys.filter (· != i) := by
  simp only [keys, remove, List.map_filter, List.filter_map]
  rfl

theorem keys_insert (m : HMap K V) (i : K) (v : V) :
    (m.insert i v).keys = i :: m.keys.filter (· != i) := by
  simp only [insert, ← keys_remove]
  rfl

theorem keys_update (m : HMap K V) (i : K) (f : V → V) : (m.update i f).keys = m.keys := by
  simp only [keys, update, List.map_map]
  apply List.map_congr_left
  intro e _
  simp only [Function.comp]
  split_ifs <;> rfl

theorem keys_mapVals (m : HMap K V) (f : V → W) : (m.mapVals f).keys = m.keys := by
  simp only [keys, mapVals, List.map_map]
  apply List.map_congr_left
  intro e _
  rfl

theorem nodup_remove {m : HMap K V} (h : m.keys.Nodup) (i : K) : (m.remove i).keys.Nodup := by
  rw [keys_remove]; exact h.filter _

theorem nodup_insert {m : HMap K V} (h : m.keys.Nodup) (i : K) (v : V) :
    (m.insert i v).keys.Nodup := by
  rw [keys_insert]
  refine List.nodup_cons.mpr ⟨?_, h.filter _⟩
  simp [List.mem_filter]

theorem contains_iff {m : HMap K V} {i : K} : m.contains i = true ↔ ∃ v, m.get? i = some v := by
  simp [contains, Option.isSome_iff_exists]

theorem not_contains_iff {m : HMap K V} {i : K} : m.contains i = false ↔ m.get? i = none := by
  simp [contains]

theorem mem_iterKeys {m : HMap K V} {σ : IterOrder K} {i : K} :
    i ∈ m.iterKeys σ ↔ (m.get? i).isSome := by
  rw [iterKeys, (σ.perm _).mem_iff, mem_keys]

theorem get?_of_mem {m : HMap K V} (h : m.keys.Nodup) {k : K} {v : V} (hm : (k, v) ∈ m) :
    m.get? k = some v := by
  induction m with
  | nil => cases hm
  | cons e m ih =>
    obtain ⟨k', v'⟩ := e
    simp only [keys, List.map_cons, List.nodup_cons] at h
    rw [get?_cons]
    rcases List.mem_cons.mp hm with h1 | h1
    · injection h1 with h1 h2; subst h1; subst h2; simp
    · rw [if_neg, ih h.2 h1]
      rintro rfl
      exact h.1 (List.mem_map_of_mem (f := Prod.fst) h1)

theorem mem_of_get? {m : HMap K V} {k : K} {v : V} (h : m.get? k = some v) : (k, v) ∈ m := by
  induction m with
  | nil => cases h
  | cons e m ih =>
    obtain ⟨k', v'⟩ := e
    rw [get?_cons] at h
    split_ifs at h with hk
    · injection h with h; subst h; subst hk; exact List.mem_cons_self ..
    · exact List.mem_cons_of_mem _ (ih h)

end HMap
end Rawdio
