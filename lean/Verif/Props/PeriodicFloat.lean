import Verif.Lemmas.PeriodicFloat

/-! # Periodic notifications in the arithmetic of `f64` (C107) -/

namespace Rawdio
namespace Periodic

/-- If the interval is a whole number of samples, the notifications come exactly when they are due, for ever. -/
theorem C107_exact (sr M : Nat) (hsr : 0 < sr) (hM : 0 < M) (hM2 : M ≤ 2 ^ 52) (f : ℚ) (hf : f * M = sr) (fuel : Nat) (ns : List Nat)
    (hns : ∀ n ∈ ns, n ≤ 2 ^ 52) (hfuel : ∀ n ∈ ns, (n : ℚ) / M + 1 < fuel) :
    ∃ p p' bs, newFloat sr f = .ok p ∧ p.advancesFloat fuel ns = .ok (p', bs) ∧ bs = due M 0 ns := by
  have hMq : (0 : ℚ) < M := by exact_mod_cast hM
  have hsq : (0 : ℚ) < sr := by exact_mod_cast hsr
  have hf0 : 0 < f := by
    by_contra hh
    have := mul_nonpos_of_nonpos_of_nonneg (not_lt.mp hh) hMq.le
    linarith
  have e : (sr : ℚ) / f = M := by rw [div_eq_iff hf0.ne', mul_comm]; exact hf.symm
  have er : Float64.round ((sr : ℚ) / f) = ((M : Int) : ℚ) := by
    rw [e]
    have := Float64.round_of_rep (rep_nat (n := M) (by omega))
    rw [this]
    norm_cast
  obtain ⟨p, p', bs, h1, h2, h3, -⟩ := C50_no_drift sr hsr f hf0 fuel ns (by rwa [e])
  have hp : p = ⟨((M : Int) : ℚ), ((M : Int) : ℚ)⟩ := by
    unfold new at h1
    rw [if_pos ⟨hsr, hf0⟩, e] at h1
    cases h1
    norm_cast
  refine ⟨p, p', bs, ?_, ?_, by rw [h3, e]⟩
  · unfold newFloat
    rw [if_pos ⟨hsr, hf0⟩, er, hp]
  · rw [← h2, hp]
    exact advances_whole (by exact_mod_cast hM) (by exact_mod_cast hM2) fuel ns M (by exact_mod_cast hM) (by exact_mod_cast hM2) hns

/-- Ten times a second at 48 kHz, with blocks of 4000 frames. -/
example : ∃ p p' bs, newFloat 48000 10 = .ok p ∧ p.advancesFloat 5 [4000, 4000, 4000] = .ok (p', bs) ∧
    bs = due (4800 : Nat) 0 [4000, 4000, 4000] :=
  C107_exact 48000 4800 (by norm_num) (by norm_num) (by norm_num) 10 (by norm_num) 5 [4000, 4000, 4000] (by simp)
    (by intro n hn; simp at hn; rw [hn]; norm_num)

/-- With blocks that are shorter than the interval, the number of notifications after any number of blocks is the number of
intervals that have gone by, rounded down, with an error of 2^-50 of an interval for each block. -/
theorem C107_drift (sr : Nat) (hsr : 0 < sr) (f : ℚ) (hf : 0 < f) (B : Nat) (hB : (B : ℚ) + 1 ≤ sr / f) (hB2 : B + 1 < 2 ^ 53)
    (fuel : Nat) (hfuel : 2 ≤ fuel) (ns : List Nat) (hns : ∀ n ∈ ns, n ≤ B) :
    ∃ p p' bs, newFloat sr f = .ok p ∧ p.advancesFloat fuel ns = .ok (p', bs) ∧
      (ns.sum : ℚ) / (sr / f) - 1 - ns.length * (1 / 2 ^ 50) ≤ bs.count true ∧
      (bs.count true : ℚ) ≤ ns.sum / (sr / f) + ns.length * (1 / 2 ^ 50) := by
  obtain ⟨I, hI⟩ : ∃ I, I = (sr : ℚ) / f := ⟨_, rfl⟩
  obtain ⟨J, hJ⟩ : ∃ J, J = Float64.round I := ⟨_, rfl⟩
  have hnew : newFloat sr f = .ok ⟨J, J⟩ := by
    unfold newFloat
    rw [if_pos ⟨hsr, hf⟩, ← hI, ← hJ]
  rw [← hI] at hB ⊢
  have hB0 : (0 : ℚ) ≤ B := Nat.cast_nonneg B
  have hJrep : Float64.Rep J := by rw [hJ]; exact Float64.rep_round (by linarith)
  have hBJ : (B : ℚ) + 1 ≤ J := by
    rw [hJ]
    refine Float64.le_round (by linarith) ?_ hB
    have := rep_nat hB2
    push_cast at this
    exact this
  have hstart : Near J 0 0 0 ⟨J, J⟩ := ⟨rfl, ⟨by dsimp only; linarith, le_rfl⟩, by simp⟩
  obtain ⟨p', bs, h1, -, ⟨h2, h3⟩, h4⟩ := near_advances hJrep hBJ (by omega) fuel hfuel ns hstart hns
  refine ⟨_, p', bs, hnew, h1, ?_⟩
  rw [Nat.zero_add, Nat.zero_add, Nat.zero_add] at h4
  have hsum : (ns.sum : ℚ) ≤ ns.length * I := by
    have h5 : ns.sum ≤ ns.length * B := by
      have := List.sum_le_card_nsmul ns B hns
      simpa using this
    have h6 : (ns.sum : ℚ) ≤ ns.length * B := by exact_mod_cast h5
    have h7 : (ns.length : ℚ) * B ≤ ns.length * I := mul_le_mul_of_nonneg_left (by linarith) (Nat.cast_nonneg _)
    linarith
  have hIJ : |J - I| ≤ I * (1 / 2 ^ 52) := by
    rw [hJ]
    have small : (1 : ℚ) / 2 ^ 900 ≤ 1 := by
      rw [div_le_one (by positivity)]
      exact one_le_pow₀ (by norm_num)
    have := Float64.round_near (x := I) (Or.inr (by rw [abs_of_nonneg (by linarith)]; linarith))
    rwa [abs_of_nonneg (show (0 : ℚ) ≤ I by linarith)] at this
  have hIJ' := abs_le.mp hIJ
  have h4' := abs_le.mp h4
  have hS0 : (0 : ℚ) ≤ ns.sum := Nat.cast_nonneg _
  have hN0 : (0 : ℚ) ≤ ns.length := Nat.cast_nonneg _
  generalize (ns.sum : ℚ) = S at *
  generalize (ns.length : ℚ) = N at *
  generalize ((bs.count true : ℕ) : ℚ) = k at *
  have hI0 : 0 < I := by linarith
  have hJ0 : 0 < J := by linarith
  -- the number of intervals as rounded
  have a1 : k ≤ S / J + N * (1 / 2 ^ 51) := by
    have : k * J ≤ S + N * (1 / 2 ^ 51) * J := by linarith
    calc k = k * J / J := by field_simp
      _ ≤ (S + N * (1 / 2 ^ 51) * J) / J := div_le_div_of_nonneg_right this hJ0.le
      _ = S / J + N * (1 / 2 ^ 51) := by field_simp
  have a2 : S / J - N * (1 / 2 ^ 51) ≤ k + 1 := by
    have : S - N * (1 / 2 ^ 51) * J ≤ (k + 1) * J := by linarith
    calc S / J - N * (1 / 2 ^ 51) = (S - N * (1 / 2 ^ 51) * J) / J := by field_simp
      _ ≤ (k + 1) * J / J := div_le_div_of_nonneg_right this hJ0.le
      _ = k + 1 := by field_simp
  have a3 : |S / J - S / I| ≤ N * (1 / 2 ^ 51) := by
    have e : S / J - S / I = S / I * ((I - J) / J) := by field_simp
    have hSI : S / I ≤ N := by rw [div_le_iff₀ hI0]; exact hsum
    have hSI0 : 0 ≤ S / I := by positivity
    have h5 : |(I - J) / J| ≤ 1 / 2 ^ 51 := by
      rw [abs_div, abs_of_pos hJ0, div_le_iff₀ hJ0, abs_sub_comm]
      refine hIJ.trans ?_
      linarith
    rw [e, abs_mul, abs_of_nonneg hSI0]
    exact mul_le_mul hSI h5 (abs_nonneg _) hN0
  have a3' := abs_le.mp a3
  constructor <;> linarith

/-- An interval that is not a whole number: 7 times a second at 48 kHz, in blocks of 512 frames. -/
example : ∃ p p' bs, newFloat 48000 7 = .ok p ∧ p.advancesFloat 2 (List.replicate 1000 512) = .ok (p', bs) ∧
    73 ≤ bs.count true ∧ bs.count true ≤ 74 := by
  obtain ⟨p, p', bs, h1, h2, h3, h4⟩ := C107_drift 48000 (by norm_num) 7 (by norm_num) 512 (by norm_num) (by norm_num) 2 le_rfl
    (List.replicate 1000 512) (by intro n hn; rw [List.eq_of_mem_replicate hn])
  refine ⟨p, p', bs, h1, h2, ?_, ?_⟩
  · simp only [List.sum_replicate, List.length_replicate, smul_eq_mul] at h3
    by_contra hh
    have : ((bs.count true : ℕ) : ℚ) ≤ 72 := by exact_mod_cast (by omega : bs.count true ≤ 72)
    norm_num at h3
    linarith
  · simp only [List.sum_replicate, List.length_replicate, smul_eq_mul] at h4
    by_contra hh
    have : (75 : ℚ) ≤ ((bs.count true : ℕ) : ℚ) := by exact_mod_cast (by omega : 75 ≤ bs.count true)
    norm_num at h4
    linarith

/-- Blocks of up to `B` frames are counted without an endless loop if the interval is at least 2^-50 of that.  (Full claim:
for every positive frequency.) -/
theorem C107_terminates_partial (sr : Nat) (hsr : 0 < sr) (f : ℚ) (hf : 0 < f) (B : Nat) (hB0 : 0 < B) (hB : B < 2 ^ 53)
    (hI : (B : ℚ) * (1 / 2 ^ 50) ≤ sr / f) (fuel : Nat) (hfuel : 4 * (B / (sr / f)) + 2 < fuel) (ns : List Nat)
    (hns : ∀ n ∈ ns, n ≤ B) :
    ∃ p p' bs, newFloat sr f = .ok p ∧ p.advancesFloat fuel ns = .ok (p', bs) ∧ bs.length = ns.length ∧ 0 < p'.nextNotification := by
  obtain ⟨I, hI'⟩ : ∃ I, I = (sr : ℚ) / f := ⟨_, rfl⟩
  obtain ⟨J, hJ⟩ : ∃ J, J = Float64.round I := ⟨_, rfl⟩
  have hnew : newFloat sr f = .ok ⟨J, J⟩ := by
    unfold newFloat
    rw [if_pos ⟨hsr, hf⟩, ← hI', ← hJ]
  rw [← hI'] at hI hfuel
  have hB1 : (1 : ℚ) ≤ B := by exact_mod_cast hB0
  have hI0 : 1 / 2 ^ 50 ≤ I := by linarith
  have hJrep : Float64.Rep J := by rw [hJ]; exact Float64.rep_round (by linarith)
  have small : (1 : ℚ) / 2 ^ 900 ≤ 1 / 2 ^ 60 := one_div_le_one_div_of_le (by positivity) (pow_le_pow_right₀ (by norm_num) (by norm_num))
  have hIJ := Float64.round_near (x := I) (Or.inr (by
    rw [abs_of_nonneg (by linarith)]
    generalize (1 : ℚ) / 2 ^ 900 = σ at *
    linarith))
  rw [← hJ, abs_of_nonneg (show (0 : ℚ) ≤ I by linarith)] at hIJ
  have hIJ' := (abs_le.mp hIJ).1
  have hJI : I / 2 ≤ J := by linarith
  have hJ0 : 0 < J := by linarith
  have hJs : (1 : ℚ) / 2 ^ 900 ≤ J := by
    generalize (1 : ℚ) / 2 ^ 900 = σ at *
    linarith
  obtain ⟨g, rfl⟩ : ∃ g, fuel = g + 1 := by
    have : (0 : ℚ) < fuel := by
      have : (0 : ℚ) ≤ B / I := by positivity
      linarith
    have : 0 < fuel := by exact_mod_cast this
    exact ⟨fuel - 1, by omega⟩
  have hg : (B : ℚ) < g * (J / 2) := by
    push_cast at hfuel
    have h1 : 4 * ((B : ℚ) / I) < g := by linarith
    have h2 : 4 * ((B : ℚ) / I) * (I / 4) < g * (I / 4) := mul_lt_mul_of_pos_right h1 (by linarith)
    have h3 : 4 * ((B : ℚ) / I) * (I / 4) = B := by
      have : I ≠ 0 := by linarith
      field_simp
    have h4 : (g : ℚ) * (I / 4) ≤ g * (J / 2) := mul_le_mul_of_nonneg_left (by linarith) (Nat.cast_nonneg _)
    linarith
  have key : ∀ (ns : List Nat) (p : Periodic), p.notificationInterval = J → 0 < p.nextNotification → p.nextNotification ≤ J →
      (∀ n ∈ ns, n ≤ B) → ∃ p' bs, p.advancesFloat (g + 1) ns = .ok (p', bs) ∧ bs.length = ns.length ∧ 0 < p'.nextNotification := by
    intro ns
    induction ns with
    | nil => intro p _ h2 _ _; exact ⟨p, [], rfl, rfl, h2⟩
    | cons n ns ih =>
      intro p h1 h2 h3 hn
      have hnB : (n : ℚ) ≤ B := by exact_mod_cast hn n List.mem_cons_self
      have elo : -Float64.round (p.nextNotification - n) ≤ B := by
        rcases le_total 0 (p.nextNotification - n) with hh | hh
        · have := Float64.round_nonneg hh
          linarith
        · have := Float64.round_le (x := -(p.nextNotification - n)) (by linarith) (rep_nat hB) (by linarith)
          rwa [Float32.round64_neg] at this
      have ehi : Float64.round (p.nextNotification - n) ≤ J := by
        rcases le_total 0 (p.nextNotification - n) with hh | hh
        · have : (0 : ℚ) ≤ n := Nat.cast_nonneg n
          exact Float64.round_le hh hJrep (by linarith)
        · have := round_nonpos hh
          linarith
      obtain ⟨y, y1, y2, y3⟩ := catchUp_ends hJ0 hJrep (by linarith) hJs g _ elo ehi (by linarith)
      obtain ⟨p', bs, c1, c2, c3⟩ := ih { p with nextNotification := y } h1 y2 y3 fun m hm => hn m (List.mem_cons_of_mem _ hm)
      refine ⟨p', decide (Float64.round (p.nextNotification - n) ≤ 0) :: bs, ?_, by rw [List.length_cons, List.length_cons, c2], c3⟩
      unfold advancesFloat advanceFloat
      simp only [h1, y1, bind, Except.bind]
      rw [h1] at c1
      rw [c1]
  obtain ⟨p', bs, h1, h2, h3⟩ := key ns ⟨J, J⟩ rfl hJ0 le_rfl hns
  exact ⟨_, p', bs, hnew, h1, h2, h3⟩

/-- A million notifications a second, in blocks of up to 4096 frames: some eighty thousand rounds in each block. -/
example : ∃ p p' bs, newFloat 48000 1000000 = .ok p ∧ p.advancesFloat 400000 [4096, 512, 0, 4096] = .ok (p', bs) ∧
    bs.length = 4 ∧ 0 < p'.nextNotification :=
  C107_terminates_partial 48000 (by norm_num) 1000000 (by norm_num) 4096 (by norm_num) (by norm_num) (by norm_num) 400000 (by norm_num)
    [4096, 512, 0, 4096] (by simp)

/-- If the interval is 2^-46 of a sample or less, counting a block of 512 frames never ends, because the interval is lost in
rounding: the audio thread hangs. -/
theorem C107_hang_violated (sr : Nat) (hsr : 0 < sr) (f : ℚ) (hf : 0 < f) (h : (sr : ℚ) / f ≤ 1 / 2 ^ 46) :
    ∃ p, newFloat sr f = .ok p ∧ ∀ fuel, p.advanceFloat fuel 512 = .error .diverge := by
  obtain ⟨J, hJ⟩ : ∃ J, J = Float64.round ((sr : ℚ) / f) := ⟨_, rfl⟩
  have h0 : 0 ≤ (sr : ℚ) / f := by positivity
  have J0 : 0 ≤ J := by rw [hJ]; exact Float64.round_nonneg h0
  have J1 : J ≤ 1 / 2 ^ 46 := by
    rw [hJ]
    refine Float64.round_le h0 ?_ h
    have := Float64.rep_div 1 46 (by norm_num) (by norm_num)
    exact_mod_cast this
  have stuck : ∀ fuel, catchUpFloat J fuel (-512) = .error .diverge := by
    intro fuel
    induction fuel with
    | zero => rfl
    | succ fuel ih =>
      rw [catchUpFloat, if_pos (by norm_num), show (-512 : ℚ) + J = -(512 - J) by ring, Float32.round64_neg, round_stuck J0 J1]
      exact ih
  refine ⟨⟨J, J⟩, ?_, fun fuel => ?_⟩
  · unfold newFloat
    rw [if_pos ⟨hsr, hf⟩, hJ]
  · unfold advanceFloat
    have e : Float64.round (J - (512 : ℕ)) = -512 := by
      rw [show J - (512 : ℕ) = -(512 - J) by push_cast; ring, Float32.round64_neg, round_stuck J0 J1]
    simp only [e, stuck, bind, Except.bind]

/-- 2^62 times a second at 48 kHz. -/
example : ∃ p, newFloat 48000 (2 ^ 62) = .ok p ∧ ∀ fuel, p.advanceFloat fuel 512 = .error .diverge :=
  C107_hang_violated 48000 (by norm_num) (2 ^ 62) (by norm_num) (by norm_num)

end Periodic
end Rawdio
