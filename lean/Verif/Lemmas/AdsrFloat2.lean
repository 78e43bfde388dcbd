import Verif.Lemmas.AdsrFloat

/-! Helper lemmas about ADSR envelopes in the arithmetic of `f64`: how long a stage takes. -/

namespace Rawdio
namespace Adsr64

/-- A stage that goes on forever. -/
def curve (T c w : ℚ) : Nat → ℚ
  | 0 => w
  | k + 1 => processExponential (curve T c w k) T c

theorem step_near {w T c : ℚ} (hw : |w - T| ≤ 2) (hT : |T| ≤ 5 / 4) (h0 : 0 ≤ c) (h1 : c ≤ 1) :
    |processExponential w T c - T - c * (w - T)| ≤ 1 / 2 ^ 50 := by
  unfold processExponential
  have small : (1 : ℚ) / 2 ^ 1075 ≤ 1 / 2 ^ 60 := one_div_le_one_div_of_le (by positivity) (pow_le_pow_right₀ (by norm_num) (by norm_num))
  have e1 := Float64.round_rel (w - T)
  generalize Float64.round (w - T) = d at *
  have e2 := Float64.round_rel (c * d)
  generalize Float64.round (c * d) = p at *
  have e3 := Float64.round_rel (T + p)
  generalize Float64.round (T + p) = r at *
  generalize (1 : ℚ) / 2 ^ 1075 = τ at *
  generalize w - T = z at *
  have hT' := abs_le.mp hT
  have hz := abs_le.mp hw
  have a1 : |d - z| ≤ 2 * (1 / 2 ^ 53) + τ := e1.trans (by linarith)
  have a1' := abs_le.mp a1
  have hd : |d| ≤ 2 + 1 / 2 ^ 50 := by
    rw [abs_le]
    constructor <;> linarith
  have hcd : |c * d| ≤ 2 + 1 / 2 ^ 50 := by
    rw [abs_mul, abs_of_nonneg h0]
    exact (mul_le_of_le_one_left (abs_nonneg _) h1).trans hd
  have hcd' := abs_le.mp hcd
  have a2 : |p - c * d| ≤ (2 + 1 / 2 ^ 50) * (1 / 2 ^ 53) + τ := e2.trans (by linarith)
  have a2' := abs_le.mp a2
  have hTp : |T + p| ≤ 27 / 8 := by
    rw [abs_le]
    constructor <;> linarith
  have a3' := abs_le.mp e3
  have hcz : |c * (d - z)| ≤ 2 * (1 / 2 ^ 53) + τ := by
    rw [abs_mul, abs_of_nonneg h0]
    exact (mul_le_of_le_one_left (abs_nonneg _) h1).trans a1
  have hcz' := abs_le.mp hcz
  rw [mul_sub] at hcz'
  rw [abs_le]
  constructor <;> linarith

/-- The rounding of every step adds up at most. -/
theorem curve_near {T c w : ℚ} (hw : |w - T| ≤ 5 / 4) (hT : |T| ≤ 5 / 4) (h0 : 0 ≤ c) (h1 : c ≤ 1) (k : Nat) (hk : k ≤ 2 ^ 20) :
    |curve T c w k - T - c ^ k * (w - T)| ≤ k * (1 / 2 ^ 50) := by
  induction k with
  | zero => simp [curve]
  | succ k ih =>
    have ih := ih (by omega)
    have hkq : (k : ℚ) ≤ 2 ^ 20 := by exact_mod_cast (by omega : k ≤ 2 ^ 20)
    have hc : |c ^ k * (w - T)| ≤ 5 / 4 := by
      rw [abs_mul, abs_of_nonneg (by positivity)]
      exact (mul_le_of_le_one_left (abs_nonneg _) (pow_le_one₀ h0 h1)).trans hw
    have hc' := abs_le.mp hc
    have ih' := abs_le.mp ih
    have hb : |curve T c w k - T| ≤ 2 := by
      rw [abs_le]
      constructor <;> linarith
    have hs := abs_le.mp (step_near hb hT h0 h1)
    have hm : |c * (curve T c w k - T - c ^ k * (w - T))| ≤ k * (1 / 2 ^ 50) := by
      rw [abs_mul, abs_of_nonneg h0]
      exact (mul_le_of_le_one_left (abs_nonneg _) h1).trans ih
    have hm' := abs_le.mp hm
    have e : c ^ (k + 1) * (w - T) = c * (c ^ k * (w - T)) := by ring
    rw [e]
    rw [mul_sub] at hm'
    change |processExponential (curve T c w k) T c - T - _| ≤ _
    push_cast
    rw [abs_le]
    constructor <;> linarith

/-- When a distance that shrinks by a factor falls below a bound. -/
theorem reach {n L D Z0 c : ℝ} {Z : Nat → ℝ} (hn1 : 1 ≤ n) (hn2 : n ≤ 2 ^ 19) (hL0 : 0 < L) (hL : L ≤ 5 / 2) (hD0 : 0 < D)
    (hD : D ≤ 5 / 4) (hDL : 1 / 128 ≤ D * L) (hZ0 : Z0 = D * Real.exp L) (hc : 0 < c)
    (hlog : |Real.log c + L / n| ≤ 1 / 2 ^ 45 / n + 1 / 2 ^ 48)
    (hZ : ∀ k : Nat, k ≤ 2 ^ 20 → |Z k - c ^ k * Z0| ≤ k * (1 / 2 ^ 50)) :
    (∀ k : Nat, (k : ℝ) ≤ n - 1 → D < Z k) ∧ ∀ k : Nat, n + 1 ≤ k → (k : ℝ) ≤ n + 2 → Z k < D := by
  have hn0 : 0 < n := by linarith
  have hlog' := abs_le.mp hlog
  obtain ⟨a, ha⟩ : ∃ a, a = L / n := ⟨_, rfl⟩
  obtain ⟨b, hb⟩ : ∃ b : ℝ, b = 1 / 2 ^ 45 / n := ⟨_, rfl⟩
  rw [← ha, ← hb] at hlog'
  have han : a * n = L := by rw [ha]; field_simp
  have hbn : b * n = 1 / 2 ^ 45 := by rw [hb]; field_simp
  have hb0 : 0 < b := by rw [hb]; positivity
  have ha0 : 0 < a := by rw [ha]; positivity
  have hb1 : b ≤ 1 / 2 ^ 45 := by nlinarith
  have hDa : 1 / 2 ^ 26 ≤ D * a := by
    have h1 : D * a * n = D * L := by rw [mul_assoc, han]
    by_contra hh
    push Not at hh
    have h2 : D * a * n ≤ 1 / 2 ^ 26 * 2 ^ 19 := mul_le_mul hh.le hn2 hn0.le (by norm_num)
    have h3 : D * a * n < 1 / 2 ^ 26 * n := mul_lt_mul_of_pos_right hh hn0
    have h4 : 1 / 2 ^ 26 * n ≤ 1 / 2 ^ 26 * 2 ^ 19 := mul_le_mul_of_nonneg_left hn2 (by norm_num)
    norm_num at h4 hDL
    linarith
  have hpow : ∀ k : Nat, c ^ k * Z0 = D * Real.exp (L + k * Real.log c) := by
    intro k
    have : c ^ k = Real.exp (k * Real.log c) := by rw [Real.exp_nat_mul, Real.exp_log hc]
    rw [this, hZ0, Real.exp_add]
    ring
  constructor
  · intro k hk
    have hk0 : (0 : ℝ) ≤ k := Nat.cast_nonneg k
    have hk20 : k ≤ 2 ^ 20 := by
      have : (k : ℝ) ≤ 2 ^ 20 := by linarith
      exact_mod_cast this
    have h1 := abs_le.mp (hZ k hk20)
    rw [hpow] at h1
    have h2 : a - 1 / 2 ^ 28 ≤ L + k * Real.log c := by
      have g1 : k * (-a - (b + 1 / 2 ^ 48)) ≤ k * Real.log c := mul_le_mul_of_nonneg_left (by linarith) hk0
      have g2 : (k : ℝ) * a ≤ (n - 1) * a := mul_le_mul_of_nonneg_right hk ha0.le
      have g3 : (k : ℝ) * b ≤ n * b := mul_le_mul_of_nonneg_right (by linarith) hb0.le
      have : n * b = 1 / 2 ^ 45 := by linarith
      have g4 : (n - 1) * a = L - a := by linarith
      have g5 : (k : ℝ) * (-a - (b + 1 / 2 ^ 48)) = -(k * a) - k * b - k * (1 / 2 ^ 48) := by ring
      linarith
    have h3 : a - 1 / 2 ^ 28 + 1 ≤ Real.exp (L + k * Real.log c) := le_trans (by linarith) (Real.add_one_le_exp _)
    have h4 := mul_le_mul_of_nonneg_left h3 hD0.le
    have h5 : D * (a - 1 / 2 ^ 28 + 1) = D * a - D * (1 / 2 ^ 28) + D := by ring
    linarith
  · intro k hk1 hk2
    have hk0 : (0 : ℝ) ≤ k := Nat.cast_nonneg k
    have hk20 : k ≤ 2 ^ 20 := by
      have : (k : ℝ) ≤ 2 ^ 20 := by linarith
      exact_mod_cast this
    have h1 := abs_le.mp (hZ k hk20)
    rw [hpow] at h1
    obtain ⟨u, hu⟩ : ∃ u, u = a - 1 / 2 ^ 28 := ⟨_, rfl⟩
    have hDu : 1 / 2 ^ 27 ≤ D * u := by
      have : D * u = D * a - D * (1 / 2 ^ 28) := by rw [hu]; ring
      linarith
    have hu0 : 0 < u := by
      by_contra hh
      have := mul_nonpos_of_nonneg_of_nonpos hD0.le (not_lt.mp hh)
      linarith
    have hu1 : u ≤ 5 / 2 := by
      have : a ≤ L := by nlinarith
      linarith
    have h2 : L + k * Real.log c ≤ -u := by
      have g1 : k * Real.log c ≤ k * (-a + (b + 1 / 2 ^ 48)) := mul_le_mul_of_nonneg_left (by linarith) hk0
      have g2 : (n + 1) * a ≤ (k : ℝ) * a := mul_le_mul_of_nonneg_right hk1 ha0.le
      have g3 : (k : ℝ) * b ≤ (n + 2) * b := mul_le_mul_of_nonneg_right (by linarith) hb0.le
      have g4 : (n + 1) * a = L + a := by linarith
      have g5 : (k : ℝ) * (-a + (b + 1 / 2 ^ 48)) = -(k * a) + k * b + k * (1 / 2 ^ 48) := by ring
      have g6 : (n + 2) * b = 1 / 2 ^ 45 + 2 * b := by linarith
      linarith
    have h3 : Real.exp (L + k * Real.log c) * (1 + u) ≤ 1 := by
      have e1 : Real.exp (L + k * Real.log c) ≤ Real.exp (-u) := Real.exp_le_exp.mpr h2
      have e2 : 1 + u ≤ Real.exp u := by linarith [Real.add_one_le_exp u]
      calc _ ≤ Real.exp (-u) * Real.exp u := mul_le_mul e1 e2 (by linarith) (Real.exp_pos _).le
        _ = 1 := by rw [← Real.exp_add]; simp
    generalize Real.exp (L + k * Real.log c) = E at *
    have h4 : D * E * (1 + u) ≤ D := by
      have := mul_le_mul_of_nonneg_left h3 hD0.le
      linarith
    have h5 : (k : ℝ) * (1 / 2 ^ 50) < 1 / 2 ^ 29 := by linarith
    by_contra hh
    push Not at hh
    have h6 : D - 1 / 2 ^ 29 < D * E := by linarith
    have h7 := mul_lt_mul_of_pos_right h6 (show 0 < 1 + u by linarith)
    have h8 : (D - 1 / 2 ^ 29) * (1 + u) = D + D * u - 1 / 2 ^ 29 * (1 + u) := by ring
    linarith

end Adsr64
end Rawdio
