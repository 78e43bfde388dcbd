import Verif.Lemmas.ParameterFloat2
import Verif.Props.ParameterFloat

/-! # Exponential ramps of parameters in the arithmetic of `f64` (C104) -/

namespace Rawdio
namespace RealtimeParameter

/-- C104: in the arithmetic of `f64`, with a logarithm and an exponential function of the usual accuracy, an exponential
ramp between positive values follows the exponential curve: the logarithm of the ratio is bounded by an error that grows
with the number of frames and with the time since the start. From its end time on it has exactly the target value. -/
theorem C104_exponential (ln exp : ℚ → ℚ) (hacc : Accurate ln exp) (sr : Nat) (p : RealtimeParameter ℚ) (w : ℚ)
    (s e : Int) (bs : List (Int × Nat)) (pre : List Int) (t0 : Int) (rest : List Int)
    (h : ExpCase sr p w s e bs pre t0 rest) (hv : Float64.Rep p.value) (hv1 : 1 / 2 ^ 100 ≤ p.value)
    (hv2 : p.value ≤ 2 ^ 100) (hw1 : 1 / 2 ^ 100 ≤ w) (hw2 : w ≤ 2 ^ 100) (ht : 0 ≤ t0)
    (hn : 1 ≤ samplesAt (e - t0) sr) (hE : samplesAt e sr ≤ 2 ^ 46)
    (hinc : bs.length = 1 ∨ 1 / 2 ^ 45 < |Real.log (w / p.value) / samplesAt (e - t0) sr|) :
    (∀ j, j < pre.length → (processAll (floatArith ln exp) sr p bs).1[j]? = some p.value) ∧
    (∀ (j : Nat) (t : Int), (t0 :: rest)[j]? = some t → t < e → j ≤ samplesAt (e - t0) sr →
      ∃ x : ℚ, (processAll (floatArith ln exp) sr p bs).1[pre.length + j]? = some x ∧ 0 < x ∧
        |Real.log (x / exponentialCurve p.value w (samplesAt (e - t0) sr) (j + 1))| ≤
          (58 * |Real.log (w / p.value)| * (samplesAt e sr / samplesAt (e - t0) sr) + 44 * (j + 1)) * (1 / 2 ^ 53)) ∧
    (∀ (j : Nat) (t : Int), (t0 :: rest)[j]? = some t → e ≤ t →
      (processAll (floatArith ln exp) sr p bs).1[pre.length + j]? = some w) := by
  have hET : samplesAt (e - t0) sr = samplesAt e sr - samplesAt t0 sr := by
    unfold samplesAt; push_cast; ring
  have hT : 0 ≤ samplesAt t0 sr := by
    unfold samplesAt
    have : (0 : ℚ) ≤ t0 := by exact_mod_cast ht
    positivity
  have cast100 : ∀ x : ℚ, 1 / 2 ^ 100 ≤ x → x ≤ 2 ^ 100 → (0 : ℝ) < x ∧ |Real.log x| ≤ 70 := by
    intro x h1 h2
    have a1 : (1 : ℝ) / 2 ^ 100 ≤ x := by
      have := Rat.cast_le (K := ℝ) |>.mpr h1
      push_cast at this
      exact this
    exact ⟨lt_of_lt_of_le (by positivity) a1, log_bound a1 (by exact_mod_cast h2)⟩
  obtain ⟨v0, vL⟩ := cast100 p.value hv1 hv2
  obtain ⟨w0, wL⟩ := cast100 w hw1 hw2
  obtain ⟨k, hk⟩ : ∃ k, k = factor (floatArith ln exp) w p.value e t0 sr := ⟨_, rfl⟩
  have hk' : k = exp (Float64.round (ln (Float64.round (w / p.value)) /
      Float64.round (Float64.round (samplesAt e sr) - Float64.round (samplesAt t0 sr)))) := by
    rw [hk]
    unfold factor duration
    rw [asSamples_eq, asSamples_eq]
    rfl
  obtain ⟨k0, k1⟩ := factor_float ln exp hacc w p.value (samplesAt e sr) (samplesAt t0 sr) hT
    (by rw [← hET]; exact hn) hE hv1 hv2 hw1 hw2 k hk'
  have hETR : (samplesAt e sr : ℝ) - samplesAt t0 sr = samplesAt (e - t0) sr := by rw [hET]; push_cast; rfl
  rw [hETR] at k1
  have hLb : |Real.log ((w : ℝ) / p.value)| ≤ 140 := by
    rw [Real.log_div w0.ne' v0.ne']
    exact (abs_sub _ _).trans (by linarith)
  have hnR : (1 : ℝ) ≤ samplesAt (e - t0) sr := by exact_mod_cast hn
  have hER : (samplesAt e sr : ℝ) ≤ 2 ^ 46 := by exact_mod_cast hE
  have hnE : (samplesAt (e - t0) sr : ℝ) ≤ samplesAt e sr := by
    have : samplesAt (e - t0) sr ≤ samplesAt e sr := by linarith
    exact_mod_cast this
  unfold exponentialCurve
  have hjR : ∀ j : Nat, (j : ℚ) ≤ samplesAt (e - t0) sr → (j : ℝ) ≤ (samplesAt (e - t0) sr : ℝ) := by
    intro j hj
    exact_mod_cast hj
  generalize samplesAt (e - t0) sr = nq at hinc hnR hnE k1 hjR ⊢
  generalize (nq : ℝ) = n at *
  generalize (samplesAt e sr : ℝ) = E at *
  generalize hLd : Real.log ((w : ℝ) / p.value) = L at *
  have hn0 : 0 < n := by linarith
  have hE0 : 0 ≤ E := by linarith
  obtain ⟨u, hu⟩ : ∃ u : ℝ, u = 1 / 2 ^ 53 := ⟨_, rfl⟩
  rw [← hu] at k1 ⊢
  have hu0 : 0 < u := by rw [hu]; positivity
  have hEu : E * u ≤ 1 / 128 := by
    have := mul_le_mul_of_nonneg_right hER hu0.le
    rw [hu] at this ⊢
    refine this.trans ?_
    norm_num
  have hL0 := abs_nonneg L
  have hEn : E / n ≤ E := div_le_self hE0 hnR
  have hEn0 : 0 ≤ E / n := by positivity
  have hEnu : E / n * u ≤ 1 / 128 := (mul_le_mul_of_nonneg_right hEn hu0.le).trans hEu
  have hnear : bs.length = 1 ∨ (floatArith ln exp).near k (floatArith ln exp).one = false := by
    rcases hinc with h1 | h1
    · exact .inl h1
    right
    refine not_near_one ln exp k k0 ?_
    have a1 : (29 * u * |L| * (E / n) + 12 * u) / n ≤ 29 / 128 * |L / n| + 12 * u := by
      rw [abs_div, abs_of_pos hn0, add_div]
      refine add_le_add ?_ (div_le_self (by positivity) hnR)
      have : 29 * u * |L| * (E / n) / n = 29 * (E / n * u) * (|L| / n) := by ring
      rw [this]
      refine mul_le_mul_of_nonneg_right ?_ (by positivity)
      linarith
    have a2 : |L / n| ≤ |Real.log k| + |Real.log k - L / n| := by
      have := abs_sub_le (L / n) (Real.log k) 0
      rw [sub_zero, sub_zero, abs_sub_comm (L / n)] at this
      linarith
    have a3 : (1 : ℝ) / 2 ^ 45 = 256 * u := by rw [hu]; norm_num
    have a4 : (1 : ℝ) / 2 ^ 46 = 128 * u := by rw [hu]; norm_num
    rw [a3] at h1
    rw [a4]
    linarith
  obtain ⟨r1, r2⟩ := exp_values_any (floatArith ln exp) h k hk hnear
  refine ⟨r1, ?_, ?_⟩
  · intro j t hjt hlt hjn
    have hjn' := hjR j hjn
    refine ⟨_, by rw [r2 j t hjt, if_pos hlt], ?_⟩
    change 0 < (fun x => Float64.round (Float64.round (x * k) + 0))^[j + 1] p.value ∧
      |Real.log (((fun x => Float64.round (Float64.round (x * k) + 0))^[j + 1] p.value : ℚ) / _)| ≤ _
    have hj2 : ((j + 1 : Nat) : ℝ) ≤ 2 * n := by push_cast; linarith
    have hj0 : (0 : ℝ) ≤ ((j + 1 : Nat) : ℝ) := by positivity
    have hj1 : (1 : ℝ) ≤ ((j + 1 : Nat) : ℝ) := by push_cast; linarith [(Nat.cast_nonneg j : (0 : ℝ) ≤ j)]
    have hLn : |L / n| * n = |L| := by
      rw [abs_div, abs_of_pos hn0, div_mul_cancel₀ _ hn0.ne']
    have hB : ∀ i : Nat, i ≤ j + 1 → |Real.log p.value + i * (L / n)| ≤ 500 := by
      intro i hi
      refine (abs_add_le _ _).trans ?_
      rw [abs_mul, abs_of_nonneg (by positivity : (0 : ℝ) ≤ i)]
      have : (i : ℝ) ≤ 2 * n := by
        refine le_trans ?_ hj2
        exact_mod_cast hi
      have := mul_le_mul_of_nonneg_right this (abs_nonneg (L / n))
      linarith
    have hD : ((j + 1 : Nat) : ℝ) * (|Real.log k - L / n| + 4 * u) ≤
        (58 * |L| * (E / n) + 44 * ((j + 1 : Nat) : ℝ)) * u := by
      have a1 := mul_le_mul_of_nonneg_left k1 hj0
      have a2 : ((j + 1 : Nat) : ℝ) * ((29 * u * |L| * (E / n) + 12 * u) / n) ≤
          2 * (29 * u * |L| * (E / n) + 12 * u) := by
        rw [← mul_div_assoc, div_le_iff₀ hn0]
        have := mul_le_mul_of_nonneg_right hj2 (by positivity : 0 ≤ 29 * u * |L| * (E / n) + 12 * u)
        linarith
      have a3 : u ≤ ((j + 1 : Nat) : ℝ) * u := le_mul_of_one_le_left hu0.le hj1
      have a4 := mul_nonneg hj0 hu0.le
      linarith
    have hle : (58 * |L| * (E / n) + 44 * ((j + 1 : Nat) : ℝ)) * u ≤ 100 := by
      have a1 : |L| * (E / n * u) ≤ 140 * (1 / 128) := mul_le_mul hLb hEnu (by positivity) (by norm_num)
      have a2 : ((j + 1 : Nat) : ℝ) * u ≤ 2 * E * u := mul_le_mul_of_nonneg_right (by linarith) hu0.le
      linarith
    obtain ⟨_, x0, xb⟩ := drift_exp p.value k (L / n) hv v0 k0 (j + 1) hB (by
      rw [← hu]
      exact hD.trans hle) (j + 1) le_rfl
    rw [← hu] at xb
    generalize (fun x => Float64.round (Float64.round (x * k) + 0))^[j + 1] p.value = x at x0 xb ⊢
    refine ⟨by exact_mod_cast x0, ?_⟩
    rw [Real.log_div x0.ne' (mul_pos v0 (Real.exp_pos _)).ne', Real.log_mul v0.ne' (Real.exp_pos _).ne', Real.log_exp]
    refine xb.trans (hD.trans (le_of_eq ?_))
    push_cast
    rfl
  · intro j t hjt hle
    rw [r2 j t hjt, if_neg (by omega)]

/-- A sweep from 1 to 4 in 375 samples at 48 kHz. -/
def sweepUp : RealtimeParameter ℚ := ⟨1, [⟨4, 33554432, .exponential 0⟩], 0, 1, ⟨1, 0, .immediate⟩⟩

theorem sweepUp_case (m : Nat) : ExpCase 48000 sweepUp 4 0 33554432 [(0, m + 1)] [] 0
    ((List.range m).map (fun i => Timestamp.incrementedBySamples 0 (i + 1 : Nat) 48000)) :=
  ⟨rfl, fade_times m, (fade_case m).ordered, (by intro t ht; cases ht), le_refl _, by decide⟩

example : ∃ (ln exp : ℚ → ℚ) (x : ℚ), (processAll (floatArith ln exp) 48000 sweepUp [(0, 375)]).1[100]? = some x ∧
    0 < x ∧ |Real.log (x / exponentialCurve 1 4 375 101)| ≤ (58 * |Real.log 4| + 44 * 101) * (1 / 2 ^ 53) := by
  obtain ⟨ln, exp, hacc⟩ := accurate_exists
  have hs : samplesAt (33554432 - 0) 48000 = 375 := by unfold samplesAt; norm_num
  have hs' : samplesAt 33554432 48000 = 375 := by unfold samplesAt; norm_num
  obtain ⟨_, h2, _⟩ := C104_exponential ln exp hacc 48000 sweepUp 4 0 33554432 [(0, 374 + 1)] [] 0 _ (sweepUp_case 374)
    ⟨1, 0, by simp [sweepUp], by norm_num, by norm_num⟩ (by simp only [sweepUp]; norm_num)
    (by simp only [sweepUp]; norm_num) (by norm_num) (by norm_num) le_rfl (by rw [hs]; norm_num)
    (by rw [hs']; norm_num) (.inl rfl)
  obtain ⟨x, hx, h0, hb⟩ := h2 100 (Timestamp.incrementedBySamples 0 (99 + 1 : Nat) 48000) (by simp) (by
    simp [Timestamp.incrementedBySamples, Timestamp.fromSamples, Timestamp.fromSeconds,
      Timestamp.roundHalfEven, Timestamp.one]
    norm_num) (by rw [hs]; norm_num)
  rw [hs, hs'] at hb
  refine ⟨ln, exp, x, by simpa using hx, h0, ?_⟩
  have e1 : (sweepUp.value : ℝ) = 1 := by simp [sweepUp]
  rw [e1] at hb
  norm_num at hb ⊢
  exact hb

end RealtimeParameter
end Rawdio
