import Mathlib.Analysis.SpecialFunctions.Pow.Continuity
import Mathlib.Analysis.SpecialFunctions.Log.Base
import Mathlib.Analysis.SpecificLimits.Basic
import Verif.Lemmas.EffectRun

/-! Helper lemmas: levels and gains of compressors, bounds of waveshapers. -/

namespace Rawdio
namespace Compressor

open Filter Topology

theorem nanoseconds_near {t : ℝ} (ht : 0 ≤ t) : |(nanoseconds t : ℝ) - t * 10 ^ 6| ≤ 1 / 2 := by
  have h0 : 0 ≤ t * 10 ^ 6 := by positivity
  have h1 := Nat.floor_le h0
  have h2 := Nat.lt_floor_add_one (t * 10 ^ 6)
  unfold nanoseconds
  dsimp only
  generalize t * 10 ^ 6 = y at *
  generalize ⌊y⌋₊ = k at *
  rw [abs_le]
  split
  · rename_i h
    rcases h with h | h
    · constructor <;> linarith
    · have := h.1
      constructor <;> linarith
  · rename_i h
    have h3 : 1 / 2 ≤ y - k := by
      by_contra hn
      exact h (.inl (not_le.mp hn))
    push_cast
    constructor <;> linarith

theorem weight_range {sr : Nat} (hsr : 0 < sr) (t : ℝ) : 0 ≤ weight sr t ∧ weight sr t < 1 := by
  rw [← weight_eq hsr]
  exact Follower.coefficient_range sr (by exact_mod_cast hsr) _

theorem levelAfter_step {sr : Nat} (hsr : 0 < sr) (attack release x : ℕ → ℝ) (n : ℕ) :
    ∃ w, (w = weight sr (attack n) ∨ w = weight sr (release n)) ∧ 0 ≤ w ∧ w < 1 ∧
      levelAfter sr attack release x (n + 1) = levelAfter sr attack release x n * w + |x n| * (1 - w) := by
  by_cases h : levelAfter sr attack release x n < |x n|
  · refine ⟨_, .inl rfl, (weight_range hsr _).1, (weight_range hsr _).2, ?_⟩
    rw [levelAfter]
    rw [if_pos h]
  · refine ⟨_, .inr rfl, (weight_range hsr _).1, (weight_range hsr _).2, ?_⟩
    rw [levelAfter]
    rw [if_neg h]

theorem levelAfter_bounds {sr : Nat} (hsr : 0 < sr) (attack release x : ℕ → ℝ) {M : ℝ} (hM : 0 < M) {n : ℕ}
    (hx : ∀ i < n, |x i| < M) : 0 ≤ levelAfter sr attack release x n ∧ levelAfter sr attack release x n < M := by
  induction n with
  | zero => exact ⟨le_rfl, hM⟩
  | succ n ih =>
    obtain ⟨h1, h2⟩ := ih fun i hi => hx i (by omega)
    obtain ⟨w, _, w0, w1, hw⟩ := levelAfter_step hsr attack release x n
    have h3 := hx n (by omega)
    have h4 : 0 < 1 - w := by linarith
    rw [hw]
    constructor
    · have := abs_nonneg (x n)
      positivity
    · nlinarith [mul_lt_mul_of_pos_right h3 h4, mul_le_mul_of_nonneg_right h2.le w0]

theorem mean_bounds {channels : Nat} (hc : 0 < channels) {level : ℕ → ℝ} {M : ℝ}
    (h : ∀ c < channels, 0 ≤ level c ∧ level c < M) :
    0 ≤ ∑ c ∈ Finset.range channels, level c / channels ∧ ∑ c ∈ Finset.range channels, level c / channels < M := by
  have hn : (0 : ℝ) < channels := by exact_mod_cast hc
  constructor
  · exact Finset.sum_nonneg fun c hc => div_nonneg (h c (Finset.mem_range.mp hc)).1 hn.le
  · have : ∑ c ∈ Finset.range channels, level c / channels < ∑ c ∈ Finset.range channels, M / channels := by
      apply Finset.sum_lt_sum_of_nonempty
      · exact Finset.nonempty_range_iff.mpr hc.ne'
      · intro c hc
        exact div_lt_div_of_pos_right (h c (Finset.mem_range.mp hc)).2 hn
    rwa [Finset.sum_const, Finset.card_range, nsmul_eq_mul, mul_div_cancel₀ _ hn.ne'] at this

theorem decibels_lt_zero {x : ℝ} (hx : x < 1) : decibels x < 0 := by
  unfold decibels
  split
  · norm_num
  · rename_i h
    have h0 : 0 < x := lt_trans (by positivity) (not_le.mp h)
    have := Real.logb_neg (b := 10) (by norm_num) h0 hx
    linarith

/-- A signal below full scale is quieter than 0 dB. -/
theorem loudness_lt_zero {sr channels : Nat} (hsr : 0 < sr) (hc : 0 < channels) (attack release : ℕ → ℝ)
    {x : ℕ → ℕ → ℝ} {F : ℕ} (hx : ∀ c < channels, ∀ i ≤ F, |x c i| < 1) : loudness sr channels attack release x F < 0 := by
  unfold loudness
  exact decibels_lt_zero (mean_bounds hc fun c hc =>
    levelAfter_bounds hsr _ _ _ one_pos fun i hi => hx c hc i (by omega)).2

theorem reduction_range {level knee threshold ratio : ℝ} (hk : 0 ≤ knee) (hr : 1 ≤ ratio) :
    0 ≤ reduction level knee threshold ratio ∧ reduction level knee threshold ratio ≤ 1 := by
  unfold reduction
  split
  · exact ⟨zero_le_one, le_rfl⟩
  · rename_i h
    split
    · exact ⟨le_rfl, zero_le_one⟩
    · refine ⟨by positivity, ?_⟩
      apply Real.rpow_le_one_of_one_le_of_nonpos (by norm_num)
      have h1 : 1 / ratio ≤ 1 := by rw [div_le_one (by linarith)]; exact hr
      have h2 : threshold - level ≤ 0 := by linarith [not_lt.mp h]
      have := mul_nonpos_of_nonpos_of_nonneg h2 (by linarith : 0 ≤ 1 - 1 / ratio)
      linarith

/-- A steady signal: the level tends to it. -/
theorem levelAfter_steady {sr : Nat} (hsr : 0 < sr) (attack release a : ℝ) (ha : 0 ≤ a) (x : ℕ → ℝ) {N : ℕ}
    (hx : ∀ i < N, |x i| = a) : ∀ n ≤ N, levelAfter sr (fun _ => attack) (fun _ => release) x n =
      a - a * weight sr attack ^ n := by
  intro n hn
  induction n with
  | zero => simp [levelAfter]
  | succ n ih =>
    have ih := ih (by omega)
    obtain ⟨w0, w1⟩ := weight_range hsr attack
    rw [levelAfter]
    rw [hx n (by omega), ih]
    by_cases h : a - a * weight sr attack ^ n < a
    · rw [if_pos h]
      ring
    · have hz : a * weight sr attack ^ n = 0 := le_antisymm (by linarith) (by positivity)
      rw [if_neg h, pow_succ, ← mul_assoc, hz]
      ring

theorem decibels_tendsto {a : ℝ} (ha : 1 / 10 ^ 9 < a) {u : ℕ → ℝ} (hu : Tendsto u atTop (𝓝 a)) :
    Tendsto (fun n => decibels (u n)) atTop (𝓝 (decibels a)) := by
  have ha0 : a ≠ 0 := (lt_trans (by positivity) ha).ne'
  have h1 : Tendsto (fun n => 20 * Real.logb 10 (u n)) atTop (𝓝 (20 * Real.logb 10 a)) := by
    apply Tendsto.const_mul
    unfold Real.logb
    exact ((Real.continuousAt_log ha0).tendsto.comp hu).div_const _
  have h2 : decibels a = 20 * Real.logb 10 a := by unfold decibels; rw [if_neg (by linarith)]
  rw [h2]
  refine h1.congr' ?_
  filter_upwards [hu.eventually (lt_mem_nhds ha)] with n hn
  unfold decibels
  rw [if_neg (by linarith)]

theorem reduction_tendsto {L knee threshold ratio : ℝ} (hL : threshold + knee / 2 < L)
    (hd : -128 < (threshold - L) * (1 - 1 / ratio)) {u : ℕ → ℝ} (hu : Tendsto u atTop (𝓝 L)) :
    Tendsto (fun n => reduction (u n) knee threshold ratio) atTop
      (𝓝 ((10 : ℝ) ^ ((threshold - L) * (1 - 1 / ratio) / 20))) := by
  have h0 : Tendsto (fun n => (threshold - u n) * (1 - 1 / ratio)) atTop (𝓝 ((threshold - L) * (1 - 1 / ratio))) :=
    (hu.const_sub threshold).mul_const _
  have h1 : Tendsto (fun n => (10 : ℝ) ^ ((threshold - u n) * (1 - 1 / ratio) / 20)) atTop
      (𝓝 ((10 : ℝ) ^ ((threshold - L) * (1 - 1 / ratio) / 20))) :=
    ((Real.continuousAt_const_rpow (by norm_num : (10 : ℝ) ≠ 0)).tendsto).comp (h0.div_const 20)
  refine h1.congr' ?_
  filter_upwards [hu.eventually (lt_mem_nhds hL), h0.eventually (lt_mem_nhds hd)] with n hn hn'
  unfold reduction
  rw [if_neg (by linarith), if_neg (by linarith)]

/-- The loudness of a steady signal. -/
theorem loudness_steady {sr channels : Nat} (hsr : 0 < sr) (hc : 0 < channels) (attack release : ℕ → ℝ) (A R a : ℝ)
    (ha : 0 ≤ a) (x : ℕ → ℕ → ℝ) {N : ℕ} (hA : ∀ i < N, attack i = A) (hR : ∀ i < N, release i = R)
    (hx : ∀ c < channels, ∀ i < N, |x c i| = a) {F : ℕ} (hF : F < N) :
    loudness sr channels attack release x F = decibels (a - a * weight sr A ^ (F + 1)) := by
  have hn : (channels : ℝ) ≠ 0 := by exact_mod_cast hc.ne'
  unfold loudness
  congr 1
  have : ∀ c ∈ Finset.range channels, levelAfter sr attack release (x c) (F + 1) / channels =
      (a - a * weight sr A ^ (F + 1)) / channels := by
    intro c hc
    rw [levelAfter_agree (attack' := fun _ => A) (release' := fun _ => R) (x' := x c) (fun i hi => hA i (by omega))
      (fun i hi => hR i (by omega)) (fun _ _ => rfl), levelAfter_steady hsr A R a ha (x c)
      (hx c (Finset.mem_range.mp hc)) (F + 1) (by omega)]
  rw [Finset.sum_congr rfl this, Finset.sum_const, Finset.card_range, nsmul_eq_mul, mul_div_cancel₀ _ hn]

theorem loudness_tendsto {sr : Nat} (hsr : 0 < sr) (A : ℝ) {a : ℝ} (ha : 1 / 10 ^ 9 < a) :
    Tendsto (fun F => decibels (a - a * weight sr A ^ (F + 1))) atTop (𝓝 (decibels a)) := by
  apply decibels_tendsto ha
  obtain ⟨w0, w1⟩ := weight_range hsr A
  have h1 : Tendsto (fun F : ℕ => weight sr A ^ (F + 1)) atTop (𝓝 0) :=
    (tendsto_add_atTop_iff_nat 1).mpr (tendsto_pow_atTop_nhds_zero_of_lt_one w0 w1)
  have h2 := (h1.const_mul a).const_sub a
  rwa [mul_zero, sub_zero] at h2

end Compressor
end Rawdio
