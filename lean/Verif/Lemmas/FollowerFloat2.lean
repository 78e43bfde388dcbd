import Verif.Lemmas.FollowerFloat

/-! Helper lemmas about the coefficients of envelope followers in the arithmetic of `f32`, and about what steps of
theirs lead to. -/

namespace Rawdio
namespace Follower32

/-- What the rounding adds for an input `x`, if the times are up to `N` samples. -/
def slack (N x : ℚ) : ℚ := 3 * N / 2 ^ 24 * x + 5 * N / 2 ^ 150

theorem slack_nonneg {N x : ℚ} (hN : 64 ≤ N) (hx : 0 ≤ x) : 0 ≤ slack N x := by
  unfold slack
  have : 0 ≤ N := by linarith
  positivity

/-- The slack takes up the rounding of one step. -/
theorem slack_step {N a x : ℚ} (hN : 64 ≤ N) (hN2 : N ≤ 2 ^ 20) (ha : 0 ≤ a) (ha1 : a ≤ 1 - 15 / (16 * N)) (hx : 0 ≤ x) :
    a * slack N x + 17 / 8 * (1 / 2 ^ 24) * (x + a * slack N x) + 1 / 2 ^ 24 * (x * (1 - a)) + 4 * (1 / 2 ^ 150) ≤
      slack N x := by
  have hN0 : 0 < N := by linarith
  obtain ⟨k, hk⟩ : ∃ k, k = 1 - a := ⟨_, rfl⟩
  obtain rfl : a = 1 - k := by linarith
  have hk1 : k ≤ 1 := by linarith
  have hkN : 15 / 16 ≤ k * N := by
    have : 15 / (16 * N) ≤ k := by linarith
    rw [div_le_iff₀ (by positivity)] at this
    linarith
  have hk0 : 0 < k := by
    by_contra hc
    have := mul_nonpos_of_nonpos_of_nonneg (not_lt.mp hc) hN0.le
    linarith
  obtain ⟨u, hu⟩ : ∃ u : ℚ, u = 1 / 2 ^ 24 := ⟨_, rfl⟩
  obtain ⟨η, hη⟩ : ∃ η : ℚ, η = 1 / 2 ^ 150 := ⟨_, rfl⟩
  have hη0 : 0 < η := by rw [hη]; positivity
  have hu0 : 0 < u := by rw [hu]; positivity
  have huN : u * N ≤ 1 / 16 := by
    have := mul_le_mul_of_nonneg_left hN2 hu0.le
    rw [hu] at this ⊢
    refine this.trans ?_
    norm_num
  have hS : slack N x = N * (3 * u * x + 5 * η) := by
    unfold slack
    rw [hu, hη]
    ring
  rw [hS, ← hu, ← hη]
  clear hu hη hS ha1
  have hux : 0 ≤ u * x := by positivity
  -- what one step takes off
  have huk : 17 / 8 * u ≤ 1 / 7 * k := by
    have : 17 / 8 * u * N ≤ 1 / 7 * k * N := by linarith
    exact le_of_mul_le_mul_right this hN0
  have h1 : 6 / 7 * k ≤ 1 - (1 - k) * (1 + 17 / 8 * u) := by
    have : 0 ≤ k * u := by positivity
    nlinarith
  have hkNk : 64 * k ≤ k * N := by nlinarith
  have h2 : u * x * (17 / 8 + k) ≤ 6 / 7 * k * (N * (3 * u * x)) := by
    have : 17 / 8 + k ≤ 18 / 7 * (k * N) := by linarith
    have := mul_le_mul_of_nonneg_left this hux
    linarith
  have h3 : 4 * η ≤ 6 / 7 * k * (N * (5 * η)) := by
    have : 4 ≤ 30 / 7 * (k * N) := by linarith
    have := mul_le_mul_of_nonneg_right this hη0.le
    linarith
  have hS0 : 0 ≤ N * (3 * u * x + 5 * η) := by positivity
  have h4 := mul_le_mul_of_nonneg_right h1 hS0
  generalize hD : N * (3 * u * x + 5 * η) = S at *
  have h5 : 6 / 7 * k * S = 6 / 7 * k * (N * (3 * u * x)) + 6 / 7 * k * (N * (5 * η)) := by rw [← hD]; ring
  rw [h5] at h4
  linarith

/-- A step keeps the level below a bound for the input and the slack. -/
theorem step_le {N a y x X : ℚ} (hN : 64 ≤ N) (hN2 : N ≤ 2 ^ 20) (ha : 0 ≤ a) (ha1 : a ≤ 1 - 15 / (16 * N)) (hx : 0 ≤ x)
    (hxX : x ≤ X) (hy : 0 ≤ y) (hyX : y ≤ X + slack N X) : step a y x ≤ X + slack N X := by
  have hN0 : 0 < N := by linarith
  have h16 : (1 : ℚ) / 2 ^ 21 ≤ 15 / (16 * N) := by
    rw [div_le_div_iff₀ (by positivity) (by positivity)]
    linarith
  have hk : 0 < 1 - a := by
    have : (0 : ℚ) < 15 / (16 * N) := by positivity
    linarith
  have h1 := (abs_le.mp (step_error (a := a) (y := y) (x := x) ha (by linarith) hy hx)).2
  have h2 := slack_step hN hN2 ha ha1 (hx.trans hxX)
  have h3 : y * a + x * (1 - a) ≤ X + a * slack N X := by
    have a1 := mul_le_mul_of_nonneg_right hyX ha
    have a2 := mul_le_mul_of_nonneg_right hxX hk.le
    linarith
  have h4 : x * (1 - a) ≤ X * (1 - a) := mul_le_mul_of_nonneg_right hxX hk.le
  linarith

/-- A step brings the level closer to the input, up to the slack. -/
theorem step_shrink {N a y x D : ℚ} (hN : 64 ≤ N) (hN2 : N ≤ 2 ^ 20) (ha : 0 ≤ a) (ha1 : a ≤ 1 - 15 / (16 * N))
    (hx : 0 ≤ x) (hy : 0 ≤ y) (hD : 0 ≤ D) (h : |y - x| ≤ D + slack N x) :
    |step a y x - x| ≤ (1 - 4 / (5 * N)) * D + slack N x := by
  have hN0 : 0 < N := by linarith
  have h16 : (1 : ℚ) / 2 ^ 21 ≤ 15 / (16 * N) := by
    rw [div_le_div_iff₀ (by positivity) (by positivity)]
    linarith
  have h1 := step_error (a := a) (y := y) (x := x) ha (by linarith) hy hx
  have h2 := slack_step hN hN2 ha ha1 hx
  have h3 : |y * a + x * (1 - a) - x| ≤ a * (D + slack N x) := by
    have : y * a + x * (1 - a) - x = a * (y - x) := by ring
    rw [this, abs_mul, abs_of_nonneg ha]
    exact mul_le_mul_of_nonneg_left h ha
  have h4 : |step a y x - x| ≤ |step a y x - (y * a + x * (1 - a))| + |y * a + x * (1 - a) - x| := abs_sub_le _ _ _
  have h5 : y * a + x * (1 - a) ≤ x + a * (D + slack N x) := by linarith [(abs_le.mp h3).2]
  have h6 : a * D + 17 / 8 * (1 / 2 ^ 24) * (a * D) ≤ (1 - 4 / (5 * N)) * D := by
    have : a * (1 + 17 / 8 * (1 / 2 ^ 24)) ≤ 1 - 4 / (5 * N) := by
      have b1 : (17 : ℚ) / 8 * (1 / 2 ^ 24) ≤ 17 / 128 * (1 / N) := by
        rw [mul_one_div, mul_one_div, div_le_div_iff₀ (by positivity) hN0]
        linarith
      have b2 : 15 / (16 * N) = 15 / 16 * (1 / N) := by field_simp
      have b3 : 4 / (5 * N) = 4 / 5 * (1 / N) := by field_simp
      rw [b2] at ha1
      rw [b3]
      have b4 : 0 < 1 / N := by positivity
      have b5 : a * (17 / 8 * (1 / 2 ^ 24)) ≤ 17 / 8 * (1 / 2 ^ 24) :=
        mul_le_of_le_one_left (by positivity) (by linarith)
      linarith
    have := mul_le_mul_of_nonneg_right this hD
    linarith
  linarith

end Follower32

namespace Float64

/-- The error of a rounding of a number that is not too small. -/
theorem round_near {x : ℚ} (h : x = 0 ∨ 1 / 2 ^ 900 ≤ |x|) : |round x - x| ≤ |x| * (1 / 2 ^ 52) := by
  rcases h with rfl | h
  · rw [Float32.round64_zero]
    simp
  · have := round_rel x
    have h2 : (1 : ℚ) / 2 ^ 1075 ≤ |x| * (1 / 2 ^ 53) := by
      have h3 := mul_le_mul_of_nonneg_right h (show (0 : ℚ) ≤ 1 / 2 ^ 53 by positivity)
      refine le_trans ?_ h3
      rw [one_div_mul_one_div, ← pow_add]
      exact one_div_le_one_div_of_le (by positivity) (pow_le_pow_right₀ (by norm_num) (by norm_num))
    have e : (1 : ℚ) / 2 ^ 52 = 1 / 2 ^ 53 + 1 / 2 ^ 53 := by norm_num
    rw [e, mul_add]
    linarith

end Float64

namespace Follower32

/-- Products of small errors. -/
theorem near_mul {a b ε δ x : ℚ} (h1 : |a - x| ≤ |x| * ε) (h2 : |b - a| ≤ |a| * δ) (hδ : 0 ≤ δ) :
    |b - x| ≤ |x| * (ε + δ + ε * δ) := by
  have h3 : |a| ≤ |x| + |x| * ε := by
    have := abs_sub_abs_le_abs_sub a x
    linarith
  have h4 := mul_le_mul_of_nonneg_right h3 hδ
  have h5 := abs_sub_le b a x
  linarith

theorem secs_near {t : Nat} (ht : 0 < t) : |secs t - (t : ℚ) / 10 ^ 9| ≤ (t : ℚ) / 10 ^ 9 * (1 / 2 ^ 50) := by
  have hsplit : (t : ℚ) / 10 ^ 9 = (t / 10 ^ 9 : Nat) + ((t % 10 ^ 9 : Nat) : ℚ) / 10 ^ 9 := by
    have := Nat.div_add_mod t (10 ^ 9)
    have h2 : (t : ℚ) = 10 ^ 9 * (t / 10 ^ 9 : Nat) + (t % 10 ^ 9 : Nat) := by exact_mod_cast this.symm
    rw [div_eq_iff (by norm_num), add_mul, div_mul_cancel₀ _ (by norm_num), mul_comm _ ((10 : ℚ) ^ 9)]
    exact h2
  have hpos : (1 : ℚ) / 10 ^ 9 ≤ t / 10 ^ 9 := by
    apply div_le_div_of_nonneg_right _ (by norm_num)
    exact_mod_cast ht
  have small : (1 : ℚ) / 2 ^ 900 ≤ 1 / 2 ^ 31 := one_div_le_one_div_of_le (by positivity) (pow_le_pow_right₀ (by norm_num) (by norm_num))
  have h9 : (1 : ℚ) / 2 ^ 31 ≤ 1 / 10 ^ 9 * (1 / 2) := by norm_num
  generalize hq : (t : ℚ) / 10 ^ 9 = q at *
  unfold secs
  have hw : (0 : ℚ) ≤ (t / 10 ^ 9 : Nat) := Nat.cast_nonneg _
  have hf : (0 : ℚ) ≤ ((t % 10 ^ 9 : Nat) : ℚ) / 10 ^ 9 := by positivity
  have e1 : |Float64.round (((t % 10 ^ 9 : Nat) : ℚ) / 10 ^ 9) - ((t % 10 ^ 9 : Nat) : ℚ) / 10 ^ 9| ≤
      |((t % 10 ^ 9 : Nat) : ℚ) / 10 ^ 9| * (1 / 2 ^ 52) := by
    apply Float64.round_near
    rcases Nat.eq_zero_or_pos (t % 10 ^ 9) with h | h
    · left
      rw [h]
      simp
    · right
      rw [abs_of_nonneg hf]
      refine small.trans (h9.trans (le_trans (by norm_num) (div_le_div_of_nonneg_right (c := 10 ^ 9) (a := 1) ?_ (by norm_num))))
      exact_mod_cast h
  rw [abs_of_nonneg hf] at e1
  generalize ((t % 10 ^ 9 : Nat) : ℚ) / 10 ^ 9 = f at *
  generalize Float64.round f = g at *
  generalize ((t / 10 ^ 9 : Nat) : ℚ) = w at *
  have hq0 : 0 ≤ q := le_trans (by norm_num) hpos
  have e2 : |w + g - q| ≤ |q| * (1 / 2 ^ 52) := by
    rw [hsplit, show w + g - (w + f) = g - f by ring, abs_of_nonneg (show 0 ≤ w + f by linarith)]
    refine e1.trans ?_
    exact mul_le_mul_of_nonneg_right (by linarith) (by positivity)
  have hwg : q * (1 / 2) ≤ w + g := by
    have := (abs_le.mp e2).1
    rw [abs_of_nonneg hq0] at this
    linarith
  have e3 : |Float64.round (w + g) - (w + g)| ≤ |w + g| * (1 / 2 ^ 52) := by
    apply Float64.round_near
    right
    rw [abs_of_nonneg (by linarith)]
    refine small.trans (h9.trans (le_trans ?_ hwg))
    exact mul_le_mul_of_nonneg_right hpos (by norm_num)
  have := near_mul e2 e3 (by positivity)
  rw [abs_of_nonneg hq0] at this
  refine this.trans (mul_le_mul_of_nonneg_left (by norm_num) hq0)

/-- The argument of the exponential function. -/
theorem exponent_near {sr t : Nat} (hsr : 0 < sr) (ht : 0 < t) (hn : timeSamples sr t ≤ 2 ^ 20) :
    |Float64.round (-1 / Float64.round (sr * secs t)) - -1 / timeSamples sr t| ≤
      1 / timeSamples sr t * (1 / 2 ^ 47) := by
  have hs := secs_near ht
  have hsr1 : (1 : ℚ) ≤ sr := by exact_mod_cast hsr
  have ht1 : (1 : ℚ) ≤ t := by exact_mod_cast ht
  have hn0 : (1 : ℚ) / 10 ^ 9 ≤ timeSamples sr t := by
    unfold timeSamples
    apply div_le_div_of_nonneg_right _ (by norm_num)
    nlinarith
  have hmul : |sr * secs t - timeSamples sr t| ≤ |timeSamples sr t| * (1 / 2 ^ 50) := by
    have e : sr * secs t - timeSamples sr t = sr * (secs t - t / 10 ^ 9) := by unfold timeSamples; ring
    have e2 : |timeSamples sr t| * (1 / 2 ^ 50) = sr * (t / 10 ^ 9 * (1 / 2 ^ 50)) := by
      rw [abs_of_nonneg (le_trans (by norm_num) hn0)]
      unfold timeSamples
      ring
    rw [e, e2, abs_mul, abs_of_nonneg (show (0 : ℚ) ≤ sr by linarith)]
    exact mul_le_mul_of_nonneg_left hs (by linarith)
  generalize timeSamples sr t = n at *
  generalize (sr : ℚ) * secs t = m at *
  have hnp : 0 < n := lt_of_lt_of_le (by norm_num) hn0
  rw [abs_of_pos hnp] at hmul
  have small : ∀ k : ℕ, k ≤ 900 → (1 : ℚ) / 2 ^ 900 ≤ 1 / 2 ^ k := fun k hk =>
    one_div_le_one_div_of_le (by positivity) (pow_le_pow_right₀ (by norm_num) hk)
  have hm : n * (1 / 2) ≤ m := by
    have := (abs_le.mp hmul).1
    linarith
  have e3 : |Float64.round m - m| ≤ |m| * (1 / 2 ^ 52) := by
    apply Float64.round_near
    right
    rw [abs_of_nonneg (by linarith)]
    refine (small 32 (by norm_num)).trans (le_trans ?_ hm)
    have : (1 : ℚ) / 2 ^ 32 ≤ 1 / 10 ^ 9 * (1 / 2) := by norm_num
    linarith
  have e4 := near_mul (by rwa [abs_of_pos hnp]) e3 (by positivity)
  rw [abs_of_pos hnp] at e4
  generalize Float64.round m = r at *
  have e4' : |r - n| ≤ n * (1 / 2 ^ 49) := e4.trans (mul_le_mul_of_nonneg_left (by norm_num) hnp.le)
  have hr : n * (1 / 2) ≤ r := by
    have := (abs_le.mp e4').1
    linarith
  have hrp : 0 < r := by linarith
  have hr2 : r ≤ 2 ^ 21 := by
    have := (abs_le.mp e4').2
    linarith
  have e5 : |-1 / r - -1 / n| ≤ |-1 / n| * (1 / 2 ^ 48) := by
    have : -1 / r - -1 / n = (r - n) / (r * n) := by field_simp; ring
    rw [this, abs_div, abs_of_pos (mul_pos hrp hnp), neg_div, abs_neg, abs_of_pos (by positivity : 0 < 1 / n),
      div_le_iff₀ (mul_pos hrp hnp)]
    refine e4'.trans ?_
    have : 1 / n * (1 / 2 ^ 48) * (r * n) = r * (1 / 2 ^ 48) := by field_simp
    rw [this]
    linarith
  have e6 : |Float64.round (-1 / r) - -1 / r| ≤ |-1 / r| * (1 / 2 ^ 52) := by
    apply Float64.round_near
    right
    rw [neg_div, abs_neg, abs_of_pos (by positivity : 0 < 1 / r)]
    refine (small 21 (by norm_num)).trans (one_div_le_one_div_of_le hrp hr2)
  have := near_mul e5 e6 (by positivity)
  have e7 : |-1 / n| = 1 / n := by rw [neg_div, abs_neg, abs_of_pos (by positivity)]
  rw [e7] at this
  exact this.trans (mul_le_mul_of_nonneg_left (by norm_num) (by positivity))

/-- The coefficient is not above an exponential. -/
theorem coefficient_upper {exp : ℚ → ℚ} (hexp : AccurateDecay exp) {sr t : Nat} (hsr : 0 < sr) {N : ℚ} (hN : 1 ≤ N)
    (hN2 : N ≤ 2 ^ 20) (hn : timeSamples sr t ≤ N) :
    0 ≤ calculateCoefficient exp sr t ∧ calculateCoefficient exp sr t ≤ 1 - 1 / N + 1 / N * (1 / N) + 1 / 2 ^ 45 := by
  have hN0 : 0 < N := by linarith
  have hi0 : 0 < 1 / N := by positivity
  have hi1 : 1 / N ≤ 1 := by rw [div_le_one hN0]; exact hN
  unfold calculateCoefficient
  rcases Nat.eq_zero_or_pos t with rfl | ht
  · rw [if_pos (by simp)]
    refine ⟨le_rfl, ?_⟩
    have : 0 ≤ 1 / N * (1 / N) := by positivity
    have : (0 : ℚ) ≤ 1 / 2 ^ 45 := by positivity
    linarith
  rw [if_neg (by positivity)]
  have hx := exponent_near hsr ht (hn.trans hN2)
  have hn0 : 0 < timeSamples sr t := by
    unfold timeSamples
    have : (0 : ℚ) < sr := by exact_mod_cast hsr
    have : (0 : ℚ) < t := by exact_mod_cast ht
    positivity
  generalize Float64.round (-1 / Float64.round (sr * secs t)) = x at *
  have hin : 1 / N ≤ 1 / timeSamples sr t := one_div_le_one_div_of_le hn0 hn
  have hxN : x ≤ -(1 / N * (1 - 1 / 2 ^ 47)) := by
    have := (abs_le.mp hx).2
    rw [neg_div] at this
    have h2 := mul_le_mul_of_nonneg_right hin (show (0 : ℚ) ≤ 1 - 1 / 2 ^ 47 by norm_num)
    linarith
  have hx0 : x ≤ 0 := by
    refine hxN.trans ?_
    have : 0 ≤ 1 / N * (1 - 1 / 2 ^ 47) := mul_nonneg hi0.le (by norm_num)
    linarith
  obtain ⟨h0, herr⟩ := hexp x hx0
  refine ⟨h0, ?_⟩
  obtain ⟨d, hd⟩ : ∃ d : ℚ, d = 1 / N * (1 - 1 / 2 ^ 47) := ⟨_, rfl⟩
  rw [← hd] at hxN
  have hd0 : 0 < d := by rw [hd]; exact mul_pos hi0 (by norm_num)
  have hdi : d ≤ 1 / N := by rw [hd]; exact mul_le_of_le_one_right hi0.le (by norm_num)
  have hdi2 : 1 / N - 1 / 2 ^ 47 ≤ d := by
    rw [hd, mul_sub, mul_one]
    have : 1 / N * (1 / 2 ^ 47) ≤ 1 / 2 ^ 47 := mul_le_of_le_one_left (by positivity) hi1
    linarith
  have hdR : (0 : ℝ) < d := by exact_mod_cast hd0
  have hE : Real.exp x ≤ 1 - d + d * d := by
    have h1 : Real.exp x ≤ Real.exp (-(d : ℝ)) := by
      apply Real.exp_le_exp.mpr
      exact_mod_cast hxN
    have h2 : Real.exp (-(d : ℝ)) ≤ 1 / (1 + d) := by
      rw [Real.exp_neg, ← one_div]
      exact one_div_le_one_div_of_le (by linarith) (by linarith [Real.add_one_le_exp (d : ℝ)])
    refine h1.trans (h2.trans ?_)
    rw [div_le_iff₀ (by linarith)]
    nlinarith [mul_pos (mul_pos hdR hdR) hdR]
  have hE1 : Real.exp x ≤ 1 := by
    rw [Real.exp_le_one_iff]
    exact_mod_cast hx0
  have h3 := (abs_le.mp herr).2
  have small : (1 : ℝ) / 2 ^ 1000 ≤ 1 / 2 ^ 50 := one_div_le_one_div_of_le (by positivity) (pow_le_pow_right₀ (by norm_num) (by norm_num))
  have h4 : (exp x : ℝ) ≤ ((1 - d + d * d + 1 / 2 ^ 49 : ℚ) : ℝ) := by
    push_cast
    have : Real.exp x * (1 / 2 ^ 50) ≤ 1 / 2 ^ 50 := mul_le_of_le_one_left (by positivity) hE1
    have e : (1 : ℝ) / 2 ^ 49 = 1 / 2 ^ 50 + 1 / 2 ^ 50 := by norm_num
    rw [e]
    linarith
  have h5 : exp x ≤ 1 - d + d * d + 1 / 2 ^ 49 := by exact_mod_cast h4
  have h6 : d * d ≤ 1 / N * (1 / N) := mul_le_mul hdi hdi hd0.le hi0.le
  have e : (1 : ℚ) / 2 ^ 45 = 16 * (1 / 2 ^ 49) := by norm_num
  have e' : (1 : ℚ) / 2 ^ 47 = 4 * (1 / 2 ^ 49) := by norm_num
  rw [e]
  rw [e'] at hdi2
  have : (0 : ℚ) < 1 / 2 ^ 49 := by positivity
  linarith

/-- Nor below one. -/
theorem coefficient_lower {exp : ℚ → ℚ} (hexp : AccurateDecay exp) {sr t : Nat} (hsr : 0 < sr) (ht : 0 < t)
    (hn : 1 ≤ timeSamples sr t) (hn2 : timeSamples sr t ≤ 2 ^ 20) :
    1 - 1 / timeSamples sr t - 1 / 2 ^ 45 ≤ calculateCoefficient exp sr t ∧
    (1 - 1 / (2 * timeSamples sr t) - 1 / 2 ^ 45) ^ 2 - 1 / 2 ^ 45 ≤ calculateCoefficient exp sr t := by
  have hn0 : 0 < timeSamples sr t := by linarith
  unfold calculateCoefficient
  rw [if_neg (by positivity)]
  have hx := exponent_near hsr ht hn2
  generalize Float64.round (-1 / Float64.round (sr * secs t)) = x at *
  generalize timeSamples sr t = n at *
  have hi0 : 0 < 1 / n := by positivity
  have hi1 : 1 / n ≤ 1 := by rw [div_le_one hn0]; exact hn
  have e47 : (1 : ℚ) / n * (1 / 2 ^ 47) ≤ 1 / 2 ^ 47 := mul_le_of_le_one_left (by positivity) hi1
  rw [abs_le, neg_div] at hx
  have hx0 : x ≤ 0 := by
    have : (1 : ℚ) / n * (1 / 2 ^ 47) ≤ 1 / n := mul_le_of_le_one_right hi0.le (by norm_num)
    linarith [hx.2]
  have hxl : -(1 / n) - 1 / 2 ^ 47 ≤ x := by linarith [hx.1]
  obtain ⟨h0, herr⟩ := hexp x hx0
  have hE1 : Real.exp x ≤ 1 := by
    rw [Real.exp_le_one_iff]
    exact_mod_cast hx0
  have h3 := (abs_le.mp herr).1
  have small : (1 : ℝ) / 2 ^ 1000 ≤ 1 / 2 ^ 50 := one_div_le_one_div_of_le (by positivity) (pow_le_pow_right₀ (by norm_num) (by norm_num))
  have h4 : Real.exp x - 1 / 2 ^ 49 ≤ (exp x : ℝ) := by
    have : Real.exp x * (1 / 2 ^ 50) ≤ 1 / 2 ^ 50 := mul_le_of_le_one_left (by positivity) hE1
    have e : (1 : ℝ) / 2 ^ 49 = 1 / 2 ^ 50 + 1 / 2 ^ 50 := by norm_num
    rw [e]
    linarith
  have hxR : -(1 / (n : ℝ)) - 1 / 2 ^ 47 ≤ x := by
    have := Rat.cast_le (K := ℝ) |>.mpr hxl
    push_cast at this
    exact this
  have e49 : (1 : ℝ) / 2 ^ 49 + 1 / 2 ^ 47 ≤ 1 / 2 ^ 45 := by norm_num
  constructor
  · have h5 : ((1 - 1 / n - 1 / 2 ^ 45 : ℚ) : ℝ) ≤ exp x := by
      push_cast
      have := Real.add_one_le_exp (x : ℝ)
      linarith
    exact_mod_cast h5
  · have h5 : (((1 - 1 / (2 * n) - 1 / 2 ^ 45) ^ 2 - 1 / 2 ^ 45 : ℚ) : ℝ) ≤ exp x := by
      push_cast
      have h6 := Real.add_one_le_exp ((x : ℝ) / 2)
      have h7 : Real.exp x = Real.exp (x / 2) ^ 2 := by
        rw [pow_two, ← Real.exp_add]
        congr 1
        ring
      have hnR : (1 : ℝ) ≤ n := by exact_mod_cast hn
      have e2 : (1 : ℝ) / (2 * n) = 1 / n / 2 := by field_simp
      have hi1R : (1 : ℝ) / n ≤ 1 := by rw [div_le_one (by linarith)]; exact hnR
      have h8 : 1 - 1 / (2 * (n : ℝ)) - 1 / 2 ^ 45 ≤ Real.exp (x / 2) := by
        rw [e2]
        linarith
      have h9 : (1 - 1 / (2 * (n : ℝ)) - 1 / 2 ^ 45) ^ 2 ≤ Real.exp (x / 2) ^ 2 := by
        refine pow_le_pow_left₀ ?_ h8 2
        rw [e2]
        have : (1 : ℝ) / 2 ^ 45 ≤ 1 / 2 := by norm_num
        linarith
      rw [← h7] at h9
      linarith
    exact_mod_cast h5

/-- The converted coefficient. -/
theorem rounded_le {exp : ℚ → ℚ} (hexp : AccurateDecay exp) {sr t : Nat} (hsr : 0 < sr) {N : ℚ} (hN : 64 ≤ N)
    (hN2 : N ≤ 2 ^ 20) (hn : timeSamples sr t ≤ N) :
    0 ≤ Float32.round (calculateCoefficient exp sr t) ∧
    Float32.round (calculateCoefficient exp sr t) ≤ 1 - 15 / (16 * N) := by
  obtain ⟨h0, h1⟩ := coefficient_upper hexp hsr (by linarith) hN2 hn
  generalize calculateCoefficient exp sr t = c at *
  have hN0 : 0 < N := by linarith
  refine ⟨Float32.round_nonneg h0, ?_⟩
  have b2 : 15 / (16 * N) = 15 / 16 * (1 / N) := by field_simp
  rw [b2]
  have hi : 1 / 2 ^ 20 ≤ 1 / N := one_div_le_one_div_of_le hN0 hN2
  have hi1 : 1 / N ≤ 1 / 64 := one_div_le_one_div_of_le (by norm_num) hN
  generalize 1 / N = i at *
  have hi0 : 0 < i := lt_of_lt_of_le (by positivity) hi
  have hii : i * i ≤ i * (1 / 64) := mul_le_mul_of_nonneg_left hi1 hi0.le
  have hc : c < 1 := by
    refine h1.trans_lt ?_
    norm_num at hi ⊢
    linarith
  have := Float32.round_error_lt (x := c) (e := -1) (by norm_num) (by rw [abs_of_nonneg h0]; norm_num; exact hc)
  have h2 := (abs_le.mp this).2
  norm_num at h2 hi h1 ⊢
  linarith

end Follower32
end Rawdio
