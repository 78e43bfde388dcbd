import Mathlib.Analysis.Real.Pi.Bounds
import Verif.Lemmas.Biquad

/-! # Properties of the filter's coefficients (C53) -/

namespace Rawdio
namespace Biquad

open SecondOrder

/-- C53: below half the sample rate, with positive quality and positive shelf gain, every type of filter is stable. -/
theorem C53_stable (type : FilterType) (p : Settings) (sampleRate : Nat) (h : Proper p sampleRate) :
    Stable (calculate type p sampleRate) :=
  stable _ (inside type p sampleRate h)

/-- C53: whatever was played and however the parameters moved before, once the parameters stay put and the input is a
sinusoid, the output becomes the sinusoid times the response at its angle, up to a multiple of the flush threshold;
the multiple depends on the settings only. -/
theorem C53_response (type : FilterType) (p : Settings) (sampleRate : Nat) (h : Proper p sampleRate) :
    ∃ C, 0 ≤ C ∧ ∀ (cs : ℕ → Coefficients) (x : ℕ → ℝ) (N : ℕ) (A θ φ : ℝ),
      (∀ n ≥ N, cs n = calculate type p sampleRate) → (∀ n ≥ N, x n = A * Real.cos (θ * n + φ)) →
      ∀ η > 0, ∃ N', ∀ n ≥ N', |response cs x n -
        (A * atAngle (calculate type p sampleRate) θ * Complex.exp ((θ * n + φ : ℝ) * Complex.I)).re| ≤
          C * (1 / 10 ^ 8) + η := by
  have hin := inside type p sampleRate h
  obtain ⟨C, hC, ht⟩ := tends_to _ hin
  refine ⟨C, hC, fun cs x N A θ φ hcs hx η hη => ?_⟩
  refine ht cs x (fun n => (A * atAngle (calculate type p sampleRate) θ * Complex.exp ((θ * n + φ : ℝ) * Complex.I)).re)
    N hcs (fun n hn => ?_) η hη
  have := sinusoid_solves _ hin A θ φ n
  simp only at this
  rw [hx (n + 2) (by omega), hx (n + 1) (by omega), hx n hn]
  exact this

/-- C53: the gain at every angle below half the sample rate is the gain of the analogue filter of that type. -/
theorem C53_magnitude (type : FilterType) (p : Settings) (sampleRate : Nat) (h : Proper p sampleRate) (θ : ℝ)
    (hθ : 0 ≤ θ ∧ θ < Real.pi) :
    Complex.normSq (atAngle (calculate type p sampleRate) θ) =
      prototype type p.q p.shelfGain (warped (omega p.frequency sampleRate) θ) := by
  obtain ⟨hs, hc1, hc2, hs2⟩ := trig_range _ (omega_range p sampleRate h)
  have hC : -1 < Real.cos θ := by
    rw [← Real.cos_pi]
    exact Real.cos_lt_cos_of_nonneg_of_le_pi hθ.1 le_rfl hθ.2
  have hS2 := Real.sin_sq θ
  rw [warped_eq _ _ hc1.ne' hC.ne']
  obtain ⟨_, _, hq, hg⟩ := h
  have ha : 0 < √p.shelfGain := Real.sqrt_pos.mpr hg
  have hga := Real.sq_sqrt hg.le
  have hC1 := Real.cos_le_one θ
  have halpha : 0 < Real.sin (omega p.frequency sampleRate) / (2 * p.q) := by positivity
  have hb : √(2 * √p.shelfGain) ^ 2 = 2 * √p.shelfGain := Real.sq_sqrt (by linarith)
  have hb' : √(√p.shelfGain + √p.shelfGain) ^ 2 = 2 * √p.shelfGain := by rw [Real.sq_sqrt (by linarith)]; ring
  have hb0 := Real.sqrt_nonneg (2 * √p.shelfGain)
  have hb0' := Real.sqrt_nonneg (√p.shelfGain + √p.shelfGain)
  cases type
  case highPass | lowPass | bandPass | notch =>
    simp only [calculate, highPass, lowPass, bandPass, notch, prototype]
    rw [normSq_scaled _ _ _ _ _ _ _ (by linarith)]
    generalize Real.sin (omega p.frequency sampleRate) = s at *
    generalize Real.cos (omega p.frequency sampleRate) = c at *
    generalize Real.cos θ = C at *
    generalize Real.sin θ = S at *
    have hK : ((1 - c) * (1 + C)) ^ 2 ≠ 0 := (pow_pos (mul_pos (by linarith) (by linarith)) 2).ne'
    have h1 : (1 + C) ≠ 0 := by linarith
    have h2 : (1 - c) ≠ 0 := by linarith
    rw [pass_denominator c C s S p.q hc2 hC hs2 hS2 hq]
    conv_rhs => rw [← mul_div_mul_left _ _ hK]
    congr 1
    field_simp
    first
      | ring1
      | linear_combination S ^ 2 * hs2 + (1 - c ^ 2) * hS2
      | linear_combination 4 * S ^ 2 * hs2 + 4 * (1 - c ^ 2) * hS2
  case highShelf =>
    simp only [calculate, highShelf, prototype, Level.fromLinear]
    rw [normSq_scaled _ _ _ _ _ _ _ (by nlinarith [mul_nonneg hb0' hs.le])]
    generalize Real.sin (omega p.frequency sampleRate) = s at *
    generalize Real.cos (omega p.frequency sampleRate) = c at *
    generalize Real.cos θ = C at *
    generalize Real.sin θ = S at *
    have e1 := shelf_numerator c C s S √p.shelfGain √(√p.shelfGain + √p.shelfGain) hs2 hS2 hb'
    have e2 := shelf_denominator c C s S √p.shelfGain √(√p.shelfGain + √p.shelfGain) hs2 hS2 hb'
    rw [e1]
    have h1 : (1 + C) ≠ 0 := by linarith
    have h2 : (1 - c) ≠ 0 := by linarith
    have hv : 0 < ((1 + C) * (1 - c)) ^ 2 := pow_pos (mul_pos (by linarith) (by linarith)) 2
    have hu : 0 ≤ ((1 - C) * (1 + c)) ^ 2 := sq_nonneg _
    generalize √(√p.shelfGain + √p.shelfGain) = b at *
    have hg2 := hga
    generalize √p.shelfGain = a at *
    generalize p.shelfGain = g at *
    have hnum : ((a * (a + 1 + (a - 1) * c + b * s) + a * (a + 1 + (a - 1) * c - b * s)) * C + -2 * a * (a - 1 + (a + 1) * c)) ^ 2 +
        ((a * (a + 1 + (a - 1) * c + b * s) - a * (a + 1 + (a - 1) * c - b * s)) * S) ^ 2 =
        g * (4 * (((1 + C) * (1 - c)) ^ 2 + g * ((1 - C) * (1 + c)) ^ 2)) := by
      rw [← hga, ← e2]
      ring
    rw [hnum, hga, div_pow, div_eq_div_iff (by positivity) (by positivity)]
    field_simp
  case lowShelf =>
    simp only [calculate, lowShelf, prototype, Level.fromLinear]
    rw [normSq_scaled _ _ _ _ _ _ _ (by nlinarith [mul_nonneg hb0 hs.le])]
    generalize Real.sin (omega p.frequency sampleRate) = s at *
    generalize Real.cos (omega p.frequency sampleRate) = c at *
    generalize Real.cos θ = C at *
    generalize Real.sin θ = S at *
    have e1 := shelf_numerator c C s S √p.shelfGain √(2 * √p.shelfGain) hs2 hS2 hb
    have e2 := shelf_denominator c C s S √p.shelfGain √(2 * √p.shelfGain) hs2 hS2 hb
    rw [e2]
    have h1 : (1 + C) ≠ 0 := by linarith
    have h2 : (1 - c) ≠ 0 := by linarith
    have hv : 0 < ((1 + C) * (1 - c)) ^ 2 := pow_pos (mul_pos (by linarith) (by linarith)) 2
    have hu : 0 ≤ ((1 - C) * (1 + c)) ^ 2 := sq_nonneg _
    generalize √(2 * √p.shelfGain) = b at *
    generalize √p.shelfGain = a at *
    generalize p.shelfGain = g at *
    have hnum : ((a * (a + 1 - (a - 1) * c + b * s) + a * (a + 1 - (a - 1) * c - b * s)) * C + 2 * a * (a - 1 - (a + 1) * c)) ^ 2 +
        ((a * (a + 1 - (a - 1) * c + b * s) - a * (a + 1 - (a - 1) * c - b * s)) * S) ^ 2 =
        g * (4 * (g * ((1 + C) * (1 - c)) ^ 2 + ((1 - C) * (1 + c)) ^ 2)) := by
      rw [← hga, ← e1]
      ring
    rw [hnum, hga, div_pow, div_eq_div_iff (by positivity) (by positivity)]
    field_simp

theorem atAngle_zero (a0 a1 a2 b0 b1 b2 : ℝ) (h0 : a0 ≠ 0) :
    atAngle (scaled a0 a1 a2 b0 b1 b2) 0 = (b0 + b1 + b2 : ℝ) / (a0 + a1 + a2 : ℝ) := by
  rw [atAngle, Complex.ofReal_zero, zero_mul, Complex.exp_zero, transfer_scaled _ _ _ _ _ _ _ h0]
  push_cast
  ring

theorem atAngle_pi (a0 a1 a2 b0 b1 b2 : ℝ) (h0 : a0 ≠ 0) :
    atAngle (scaled a0 a1 a2 b0 b1 b2) Real.pi = (b0 - b1 + b2 : ℝ) / (a0 - a1 + a2 : ℝ) := by
  rw [atAngle, Complex.exp_pi_mul_I, transfer_scaled _ _ _ _ _ _ _ h0]
  push_cast
  ring

/-- Spec: the response expected for a constant. -/
noncomputable def dcGain (gain : ℝ) : FilterType → ℝ
  | .lowPass => 1
  | .highPass => 0
  | .bandPass => 0
  | .notch => 1
  | .lowShelf => gain
  | .highShelf => 1

/-- Spec: the response expected at half the sample rate. -/
noncomputable def nyquistGain (gain : ℝ) : FilterType → ℝ
  | .lowPass => 0
  | .highPass => 1
  | .bandPass => 0
  | .notch => 1
  | .lowShelf => 1
  | .highShelf => gain

/-- C53: the response to a constant, and to a signal at half the sample rate. -/
theorem C53_ends (type : FilterType) (p : Settings) (sampleRate : Nat) (h : Proper p sampleRate) :
    atAngle (calculate type p sampleRate) 0 = dcGain p.shelfGain type ∧
    atAngle (calculate type p sampleRate) Real.pi = nyquistGain p.shelfGain type := by
  obtain ⟨hs, hc1, hc2, hs2⟩ := trig_range _ (omega_range p sampleRate h)
  obtain ⟨_, _, hq, hg⟩ := h
  have ha : 0 < √p.shelfGain := Real.sqrt_pos.mpr hg
  have hga := Real.sq_sqrt hg.le
  have halpha : 0 < Real.sin (omega p.frequency sampleRate) / (2 * p.q) := by positivity
  have hb : 0 < √(2 * √p.shelfGain) * Real.sin (omega p.frequency sampleRate) :=
    mul_pos (Real.sqrt_pos.mpr (by linarith)) hs
  have hb' : 0 < √(√p.shelfGain + √p.shelfGain) * Real.sin (omega p.frequency sampleRate) :=
    mul_pos (Real.sqrt_pos.mpr (by linarith)) hs
  cases type
  all_goals
    simp only [calculate, highPass, lowPass, bandPass, notch, highShelf, lowShelf, Level.fromLinear, dcGain, nyquistGain]
    generalize Real.cos (omega p.frequency sampleRate) = c at *
    rw [atAngle_zero _ _ _ _ _ _ (by nlinarith), atAngle_pi _ _ _ _ _ _ (by nlinarith), ← Complex.ofReal_div,
      ← Complex.ofReal_div]
    constructor
    all_goals
      congr 1
      rw [div_eq_iff (by nlinarith)]
      first
        | ring1
        | linear_combination (4 - 4 * c) * hga
        | linear_combination (4 + 4 * c) * hga

/-- C53: at the centre frequency the low pass has gain `q` with a quarter turn of delay, the high pass gain `q` with a
quarter turn of lead, the band pass leaves the signal alone and the notch removes it. -/
theorem C53_centre (p : Settings) (sampleRate : Nat) (h : Proper p sampleRate) :
    let ω := omega p.frequency sampleRate
    atAngle (calculate .lowPass p sampleRate) ω = -p.q * Complex.I ∧
    atAngle (calculate .highPass p sampleRate) ω = p.q * Complex.I ∧
    atAngle (calculate .bandPass p sampleRate) ω = 1 ∧
    atAngle (calculate .notch p sampleRate) ω = 0 := by
  intro ω
  obtain ⟨hs, hc1, hc2, hs2⟩ := trig_range _ (omega_range p sampleRate h)
  obtain ⟨_, _, hq, -⟩ := h
  have hq' : (p.q : ℂ) ≠ 0 := by exact_mod_cast hq.ne'
  have halpha : 0 < Real.sin (omega p.frequency sampleRate) / (2 * p.q) := by positivity
  have hz : Complex.exp (ω * Complex.I) = Real.cos ω + Real.sin ω * Complex.I := by
    rw [Complex.exp_mul_I, Complex.ofReal_cos, Complex.ofReal_sin]
  have E5 : Complex.I ^ 2 + 1 = 0 := by rw [Complex.I_sq]; ring
  have E3 : ((Real.sin ω : ℂ)) ^ 2 + (Real.cos ω : ℂ) ^ 2 - 1 = 0 := by
    have : ((Real.sin ω ^ 2 : ℝ) : ℂ) = ((1 - Real.cos ω ^ 2 : ℝ) : ℂ) := by rw [hs2]
    push_cast at this ⊢
    rw [this]
    ring
  have E1 : Complex.exp (ω * Complex.I) ^ 2 - 2 * Real.cos ω * Complex.exp (ω * Complex.I) + 1 = 0 := by
    rw [hz]
    linear_combination (Real.sin ω : ℂ) ^ 2 * E5 - E3
  have E2 : (Real.cos ω : ℂ) * Complex.exp (ω * Complex.I) - 1 - Complex.I * Real.sin ω * Complex.exp (ω * Complex.I) = 0 := by
    rw [hz]
    linear_combination E3 - (Real.sin ω : ℂ) ^ 2 * E5
  have E4 : 2 * (p.q : ℂ) * ((Real.sin ω / (2 * p.q) : ℝ) : ℂ) - Real.sin ω = 0 := by
    push_cast
    field_simp
    ring
  have hden : ((1 + Real.sin ω / (2 * p.q) : ℝ) : ℂ) * Complex.exp (ω * Complex.I) ^ 2 +
      ((-2 * Real.cos ω : ℝ) : ℂ) * Complex.exp (ω * Complex.I) + ((1 - Real.sin ω / (2 * p.q) : ℝ) : ℂ) ≠ 0 := by
    intro h2
    have h1 := normSq_poly (1 + Real.sin ω / (2 * p.q)) (-2 * Real.cos ω) (1 - Real.sin ω / (2 * p.q)) ω
    rw [h2, Complex.normSq_zero] at h1
    have h3 : 0 < (Real.sin ω / (2 * p.q)) * Real.sin ω := mul_pos halpha hs
    nlinarith
  have h0 : 1 + Real.sin (omega p.frequency sampleRate) / (2 * p.q) ≠ 0 := by linarith
  simp only [calculate, highPass, lowPass, bandPass, notch, atAngle]
  rw [transfer_scaled _ _ _ _ _ _ _ h0, transfer_scaled _ _ _ _ _ _ _ h0, transfer_scaled _ _ _ _ _ _ _ h0,
    transfer_scaled _ _ _ _ _ _ _ h0]
  change _ / (((1 + Real.sin ω / (2 * p.q) : ℝ) : ℂ) * Complex.exp (ω * Complex.I) ^ 2 +
      ((-2 * Real.cos ω : ℝ) : ℂ) * Complex.exp (ω * Complex.I) + ((1 - Real.sin ω / (2 * p.q) : ℝ) : ℂ)) = _ ∧
    _ / (((1 + Real.sin ω / (2 * p.q) : ℝ) : ℂ) * Complex.exp (ω * Complex.I) ^ 2 +
      ((-2 * Real.cos ω : ℝ) : ℂ) * Complex.exp (ω * Complex.I) + ((1 - Real.sin ω / (2 * p.q) : ℝ) : ℂ)) = _ ∧
    _ / (((1 + Real.sin ω / (2 * p.q) : ℝ) : ℂ) * Complex.exp (ω * Complex.I) ^ 2 +
      ((-2 * Real.cos ω : ℝ) : ℂ) * Complex.exp (ω * Complex.I) + ((1 - Real.sin ω / (2 * p.q) : ℝ) : ℂ)) = _ ∧
    _ / (((1 + Real.sin ω / (2 * p.q) : ℝ) : ℂ) * Complex.exp (ω * Complex.I) ^ 2 +
      ((-2 * Real.cos ω : ℝ) : ℂ) * Complex.exp (ω * Complex.I) + ((1 - Real.sin ω / (2 * p.q) : ℝ) : ℂ)) = _
  rw [div_eq_iff hden, div_eq_iff hden, div_eq_iff hden, div_eq_iff hden]
  change ((((1 - Real.cos ω) / 2 : ℝ) : ℂ) * _ + ((2 * ((1 - Real.cos ω) / 2) : ℝ) : ℂ) * _ + (((1 - Real.cos ω) / 2 : ℝ) : ℂ) = _) ∧
    ((((1 + Real.cos ω) / 2 : ℝ) : ℂ) * _ + ((-(1 + Real.cos ω) : ℝ) : ℂ) * _ + (((1 + Real.cos ω) / 2 : ℝ) : ℂ) = _) ∧
    (((Real.sin ω / (2 * p.q) : ℝ) : ℂ) * _ + _ + ((-(Real.sin ω / (2 * p.q)) : ℝ) : ℂ) = _) ∧
    (((1 : ℝ) : ℂ) * _ + ((-2 * Real.cos ω : ℝ) : ℂ) * _ + ((1 : ℝ) : ℂ) = _)
  generalize Real.sin ω / (2 * p.q) = α at *
  generalize Complex.exp (ω * Complex.I) = z at *
  push_cast at E1 E2 E3 E4 ⊢
  generalize Complex.cos ω = c at *
  generalize Complex.sin ω = s at *
  generalize (p.q : ℂ) = q at *
  generalize (α : ℂ) = α at *
  refine ⟨?_, ?_, ?_, ?_⟩
  · linear_combination ((1 - c) / 2 + q * Complex.I + q * Complex.I * α) * E1 + 2 * q * Complex.I * α * E2 +
      2 * q * α * s * z * E5 - s * z * E4 - z * E3
  · linear_combination ((1 + c) / 2 - q * Complex.I - q * Complex.I * α) * E1 - 2 * q * Complex.I * α * E2 -
      2 * q * α * s * z * E5 + s * z * E4 + z * E3
  · linear_combination -E1
  · linear_combination E1

end Biquad
end Rawdio
