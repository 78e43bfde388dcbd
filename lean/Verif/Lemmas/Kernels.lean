import Mathlib.Data.List.Basic
import Verif.Model.Kernels

/-! Helper lemmas about the vector kernels. -/

namespace Rawdio
namespace Kernels

variable {S : Type}

theorem zipInto_eq_zipWith {A B : Type} (f : A → B → B) (a : List A) (b : List B)
    (h : a.length = b.length) : zipInto f a b = List.zipWith f a b := by
  induction a generalizing b with
  | nil => cases b with
    | nil => rfl
    | cons _ _ => simp at h
  | cons x xs ih => cases b with
    | nil => simp at h
    | cons y ys => simp only [zipInto, List.zipWith]; rw [ih]; simpa using h

theorem zipInto_append {A B : Type} (f : A → B → B) (a a' : List A) (b b' : List B)
    (h : a.length = b.length) :
    zipInto f (a ++ a') (b ++ b') = zipInto f a b ++ zipInto f a' b' := by
  induction a generalizing b with
  | nil => cases b with
    | nil => rfl
    | cons _ _ => simp at h
  | cons x xs ih => cases b with
    | nil => simp at h
    | cons y ys => simp only [zipInto, List.cons_append]; rw [ih]; simpa using h

theorem length_zipInto {A B : Type} (f : A → B → B) (a : List A) (b : List B) :
    (zipInto f a b).length = b.length := by
  induction a generalizing b with
  | nil => rfl
  | cons x xs ih => cases b <;> simp [zipInto, ih]

theorem zipInto3_append {A B C : Type} (f : A → B → C → B) (a a' : List A) (b b' : List B)
    (c c' : List C) (h : a.length = b.length) (h2 : a.length = c.length) :
    zipInto3 f (a ++ a') (b ++ b') (c ++ c') = zipInto3 f a b c ++ zipInto3 f a' b' c' := by
  induction a generalizing b c with
  | nil =>
    cases b with
    | nil => cases c with
      | nil => cases a' <;> rfl
      | cons _ _ => simp at h2
    | cons _ _ => simp at h
  | cons x xs ih =>
    cases b with
    | nil => simp at h
    | cons y ys => cases c with
      | nil => simp at h2
      | cons z zs =>
        simp only [zipInto3, List.cons_append]
        rw [ih]
        · simpa using h
        · simpa using h2

theorem length_chunks (n : Nat) (l : List S) : (chunks n l).length = n := by
  induction n generalizing l with
  | zero => rfl
  | succ n ih => simp [chunks, ih]

theorem chunks_flatten (n : Nat) (l : List S) :
    (chunks n l).flatten = l.take (vectorSize * n) := by
  induction n generalizing l with
  | zero => simp [chunks]
  | succ n ih =>
    simp only [chunks, List.flatten_cons, ih]
    rw [Nat.mul_succ, Nat.add_comm, List.take_add]

theorem asSimd_join (pre : Nat) (l : List S) :
    (asSimd pre l).1 ++ (asSimd pre l).2.1.flatten ++ (asSimd pre l).2.2 = l := by
  simp only [asSimd, chunks_flatten, List.append_assoc, List.take_append_drop]

theorem zipInto_chunks_flatten (f : S → S → S) (n : Nat) (a b : List S)
    (ha : vectorSize * n ≤ a.length) (hb : vectorSize * n ≤ b.length) :
    (zipInto (zipInto f) (chunks n a) (chunks n b)).flatten
      = zipInto f (a.take (vectorSize * n)) (b.take (vectorSize * n)) := by
  induction n generalizing a b with
  | zero => simp [chunks, zipInto]
  | succ n ih =>
    simp only [chunks, zipInto, List.flatten_cons]
    rw [Nat.mul_succ] at ha hb
    rw [ih _ _ (by simp only [List.length_drop]; omega) (by simp only [List.length_drop]; omega),
      ← zipInto_append]
    · rw [← List.take_add, ← List.take_add, Nat.mul_succ, Nat.add_comm]
    · simp only [List.length_take]; omega

theorem zipInto3_chunks_flatten (f : S → S → S → S) (n : Nat) (a b c : List S)
    (ha : vectorSize * n ≤ a.length) (hb : vectorSize * n ≤ b.length)
    (hc : vectorSize * n ≤ c.length) :
    (zipInto3 (zipInto3 f) (chunks n a) (chunks n b) (chunks n c)).flatten
      = zipInto3 f (a.take (vectorSize * n)) (b.take (vectorSize * n))
          (c.take (vectorSize * n)) := by
  induction n generalizing a b c with
  | zero => simp [chunks, zipInto3]
  | succ n ih =>
    simp only [chunks, zipInto3, List.flatten_cons]
    rw [Nat.mul_succ] at ha hb hc
    rw [ih _ _ _ (by simp only [List.length_drop]; omega) (by simp only [List.length_drop]; omega)
      (by simp only [List.length_drop]; omega), ← zipInto3_append]
    · rw [← List.take_add, ← List.take_add, ← List.take_add, Nat.mul_succ, Nat.add_comm]
    · simp only [List.length_take]; omega
    · simp only [List.length_take]; omega

theorem kernel2_eq (f : S → S → S) (preS preD : Nat) (s d : List S) (h : s.length = d.length) :
    kernel2 f preS preD s d = zipInto f s d := by
  unfold kernel2
  simp only
  split_ifs with hp
  · simp only [asSimd] at hp ⊢
    have hl : (s.drop preS).length = (d.drop preD).length := by
      simp only [List.length_take] at hp
      simp only [List.length_drop]; omega
    rw [← hl, zipInto_chunks_flatten _ _ _ _ (Nat.mul_div_le _ _)
      (by rw [← hl]; exact Nat.mul_div_le _ _), List.append_assoc, ← zipInto_append,
      ← zipInto_append]
    · simp only [List.take_append_drop]
    · exact hp
    · simp only [List.length_take, hl]
  · rfl

theorem kernel3_eq (f : S → S → S → S) (preS preD preG : Nat) (s d g : List S)
    (h : s.length = d.length) (h2 : s.length = g.length) :
    kernel3 f preS preD preG s d g = zipInto3 f s d g := by
  unfold kernel3
  simp only
  split_ifs with hp
  · obtain ⟨hp, hp2⟩ := hp
    simp only [asSimd] at hp hp2 ⊢
    have hl : (s.drop preS).length = (d.drop preD).length := by
      simp only [List.length_take] at hp
      simp only [List.length_drop]; omega
    have hl2 : (s.drop preS).length = (g.drop preG).length := by
      simp only [List.length_take] at hp2
      simp only [List.length_drop]; omega
    rw [← hl, ← hl2, zipInto3_chunks_flatten _ _ _ _ _ (Nat.mul_div_le _ _)
      (by rw [← hl]; exact Nat.mul_div_le _ _) (by rw [← hl2]; exact Nat.mul_div_le _ _),
      List.append_assoc, ← zipInto3_append, ← zipInto3_append]
    · simp only [List.take_append_drop]
    · exact hp
    · exact hp2
    · simp only [List.length_take, hl]
    · simp only [List.length_take, hl2]
  · rfl

theorem multiplyByValue_eq [Mul S] (pre : Nat) (l : List S) (g : S) :
    multiplyByValue pre l g = l.map (· * g) := by
  unfold multiplyByValue
  simp only
  conv_rhs => rw [← asSimd_join pre l]
  rw [List.map_append, List.map_append, List.map_flatten]

theorem zipInto3_get {A B C : Type} (f : A → B → C → B) (a : List A) (b : List B) (c : List C)
    (h : a.length = b.length) (h2 : a.length = c.length) (i : Nat) (hi : i < b.length) :
    (zipInto3 f a b c)[i]? = some (f (a[i]'(by omega)) b[i] (c[i]'(by omega))) := by
  induction a generalizing b c i with
  | nil => simp at h; omega
  | cons x xs ih =>
    cases b with
    | nil => simp at h
    | cons y ys => cases c with
      | nil => simp at h2
      | cons z zs =>
        cases i with
        | zero => simp [zipInto3]
        | succ i =>
          simp only [zipInto3, List.getElem?_cons_succ, List.getElem_cons_succ]
          exact ih ys zs (by simpa using h) (by simpa using h2) i (by simpa using hi)

theorem length_zipInto3 {A B C : Type} (f : A → B → C → B) (a : List A) (b : List B)
    (c : List C) : (zipInto3 f a b c).length = b.length := by
  induction a generalizing b c with
  | nil => rfl
  | cons x xs ih => cases b <;> cases c <;> simp [zipInto3, ih]

theorem zipInto_get {A B : Type} (f : A → B → B) (a : List A) (b : List B)
    (h : a.length = b.length) (i : Nat) (hi : i < b.length) :
    (zipInto f a b)[i]? = some (f (a[i]'(by omega)) b[i]) := by
  rw [zipInto_eq_zipWith f a b h]
  rw [List.getElem?_eq_getElem (by simp; omega)]
  simp

end Kernels
end Rawdio
