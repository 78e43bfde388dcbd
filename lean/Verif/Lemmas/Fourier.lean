import Verif.Spec.Convolution
import Mathlib.Algebra.Field.GeomSum
import Mathlib.Analysis.SpecialFunctions.Complex.Log

/-! # The transforms turn products into convolutions -/

namespace Rawdio
namespace Convolver

/-- A power of the root of unity. -/
noncomputable def root (n : ℕ) (s : ℤ) : ℂ := Complex.exp (2 * Real.pi * Complex.I * s / n)

theorem root_add (n : ℕ) (s t : ℤ) : root n (s + t) = root n s * root n t := by
  rw [root, root, root, ← Complex.exp_add]
  congr 1
  push_cast
  ring

theorem root_pow (n : ℕ) (s : ℤ) (q : ℕ) : root n (q * s) = root n s ^ q := by
  rw [root, root, ← Complex.exp_nat_mul]
  congr 1
  push_cast
  ring

theorem root_eq_one (n : ℕ) (hn : 0 < n) (s : ℤ) : root n s = 1 ↔ (n : ℤ) ∣ s := by
  have hn' : (n : ℂ) ≠ 0 := by exact_mod_cast hn.ne'
  rw [root, Complex.exp_eq_one_iff]
  constructor
  · rintro ⟨k, hk⟩
    refine ⟨k, ?_⟩
    have h1 : 2 * (Real.pi : ℂ) * Complex.I ≠ 0 := Complex.two_pi_I_ne_zero
    have h2 : (s : ℂ) = n * k := by
      have : 2 * (Real.pi : ℂ) * Complex.I * s = 2 * Real.pi * Complex.I * (n * k) := by
        field_simp at hk
        linear_combination 2 * (Real.pi : ℂ) * Complex.I * hk
      exact mul_left_cancel₀ h1 this
    exact_mod_cast h2
  · rintro ⟨k, rfl⟩
    refine ⟨k, ?_⟩
    push_cast
    field_simp

theorem sum_root (n : ℕ) (hn : 0 < n) (s : ℤ) :
    ∑ q ∈ Finset.range n, root n (q * s) = if (n : ℤ) ∣ s then (n : ℂ) else 0 := by
  simp only [root_pow]
  by_cases h : (n : ℤ) ∣ s
  · rw [if_pos h, (root_eq_one n hn s).mpr h]
    simp
  · rw [if_neg h, geom_sum_eq (mt (root_eq_one n hn s).mp h), ← root_pow,
      (root_eq_one n hn _).mpr (Dvd.intro _ rfl)]
    simp

/-- The inverse transform of the product of two transforms, where the second sequence has `k` entries and the place
is not among the first `k - 1`: the direct convolution, scaled. -/
theorem fft_convolution (n k j : ℕ) (x h : ℕ → ℂ) (hj : j < n) (hk : k ≤ j + 1) (hh : ∀ i, k ≤ i → h i = 0) :
    ∑ q ∈ Finset.range n, ((∑ m ∈ Finset.range n, x m * root n (-(q * m))) *
      (∑ i ∈ Finset.range n, h i * root n (-(q * i)))) * root n (q * j) =
    n * ∑ i ∈ Finset.range k, h i * x (j - i) := by
  have hn : 0 < n := by omega
  have e1 : ∀ q ∈ Finset.range n, ((∑ m ∈ Finset.range n, x m * root n (-(q * m))) *
      (∑ i ∈ Finset.range n, h i * root n (-(q * i)))) * root n (q * j) =
      ∑ i ∈ Finset.range n, ∑ m ∈ Finset.range n, x m * h i * root n (q * (j - m - i)) := by
    intro q _
    rw [Finset.sum_mul_sum, Finset.sum_comm, Finset.sum_mul]
    refine Finset.sum_congr rfl fun i _ => ?_
    rw [Finset.sum_mul]
    refine Finset.sum_congr rfl fun m _ => ?_
    rw [show (q : ℤ) * (j - m - i) = -(q * m) + -(q * i) + q * j by ring, root_add, root_add]
    ring
  rw [Finset.sum_congr rfl e1, Finset.sum_comm]
  have e2 : ∀ i ∈ Finset.range n, ∑ q ∈ Finset.range n, ∑ m ∈ Finset.range n, x m * h i * root n (q * (j - m - i)) =
      if i < k then n * (h i * x (j - i)) else 0 := by
    intro i hi
    rw [Finset.sum_comm]
    by_cases hik : i < k
    · rw [if_pos hik, Finset.sum_eq_single (j - i)]
      · rw [← Finset.mul_sum, sum_root n hn, if_pos]
        · ring
        · rw [Nat.cast_sub (by omega)]
          simp
      · intro m hm hne
        rw [← Finset.mul_sum, sum_root n hn, if_neg, mul_zero]
        intro hd
        have hm' := Finset.mem_range.mp hm
        obtain ⟨c, hc⟩ := hd
        have : c = 0 := by
          by_contra hc0
          rcases lt_or_gt_of_ne hc0 with h1 | h1
          · have : (n : ℤ) * c ≤ n * (-1) := mul_le_mul_of_nonneg_left (by omega) (by omega)
            omega
          · have : (n : ℤ) * 1 ≤ n * c := mul_le_mul_of_nonneg_left (by omega) (by omega)
            omega
        subst this
        omega
      · intro hm
        exact absurd (Finset.mem_range.mpr (by omega)) hm
    · rw [if_neg hik, hh i (by omega)]
      simp
  rw [Finset.sum_congr rfl e2, Finset.mul_sum, ← Finset.sum_filter]
  refine Finset.sum_congr ?_ fun _ _ => rfl
  ext i
  simp only [Finset.mem_filter, Finset.mem_range]
  omega

theorem fft_get (n : ℕ) (x : List ℂ) (q : ℕ) (hq : q < n) :
    (fft n x).getD q 0 = ∑ m ∈ Finset.range n, x.getD m 0 * root n (-(q * m)) := by
  rw [List.getD_eq_getElem?_getD, fft, List.getElem?_map, List.getElem?_range hq]
  simp only [Option.map_some, Option.getD_some]
  refine Finset.sum_congr rfl fun m _ => ?_
  rw [root]
  congr 2
  push_cast
  ring

theorem fft_length (n : ℕ) (x : List ℂ) : (fft n x).length = n := by simp [fft]

theorem ifft_length (n : ℕ) (x : List ℂ) : (ifft n x).length = n := by simp [ifft]

theorem ifft_get (n : ℕ) (x : List ℂ) (j : ℕ) (hj : j < n) :
    (ifft n x)[j]? = some (∑ q ∈ Finset.range n, x.getD q 0 * root n (q * j)) := by
  rw [ifft, List.getElem?_map, List.getElem?_range hj]
  simp only [Option.map_some, root]
  congr 1
  refine Finset.sum_congr rfl fun m _ => ?_
  congr 2
  push_cast
  ring

/-- The same for lists, as the code has it. -/
theorem transform_get (n k j : ℕ) (x h : List ℂ) (hj : j < n) (hk : k ≤ j + 1) (hh : ∀ i, k ≤ i → h.getD i 0 = 0) :
    (ifft n (List.zipWith (· * ·) (fft n x) (fft n h)))[j]? =
      some (n * ∑ i ∈ Finset.range k, h.getD i 0 * x.getD (j - i) 0) := by
  rw [ifft_get n _ j hj]
  congr 1
  rw [← fft_convolution n k j (fun i => x.getD i 0) (fun i => h.getD i 0) hj hk hh]
  refine Finset.sum_congr rfl fun q hq => ?_
  have hq' := Finset.mem_range.mp hq
  rw [← fft_get n x q hq', ← fft_get n h q hq']
  congr 1
  have h1 : q < (fft n x).length := by rwa [fft_length]
  have h2 : q < (fft n h).length := by rwa [fft_length]
  simp only [List.getD_eq_getElem?_getD, List.getElem?_zipWith, List.getElem?_eq_getElem h1, List.getElem?_eq_getElem h2,
    Option.getD_some]

end Convolver
end Rawdio
