import Verif.Lemmas.AdsrNote

/-! # The rise and the fall of a note of an ADSR envelope -/

namespace Rawdio
namespace AdsrEnvelope

variable {sr : Nat} {a d r : ℝ} {s : Level}

theorem attack_lt_one (hsr : 0 < sr) (a : ℝ) : attackCoefficientFor a sr < 1 := by
  have h := (coefficient_pow (L := 1 / 11) (by norm_num) (by norm_num) a hsr (stageFrames a sr)).mpr (le_refl _)
  have h0 := attack_range a hsr
  rcases lt_or_eq_of_le h0.2 with h1 | h1
  · exact h1
  · unfold attackCoefficientFor at h1
    rw [attack_log] at h1
    rw [h1, one_pow] at h
    norm_num at h

theorem decay_lt_one (hsr : 0 < sr) (d : ℝ) (h0 : 0 ≤ s.linear) (h1 : s.linear < 1) : decayCoefficientFor d s sr < 1 := by
  have h := (coefficient_pow (L := (10 * s.linear + 1) / 11) (by linarith) (by linarith) d hsr (stageFrames d sr)).mpr
    (le_refl _)
  have h2 := decay_range d ⟨h0, h1.le⟩ hsr
  rcases lt_or_eq_of_le h2.2 with h3 | h3
  · exact h3
  · unfold decayCoefficientFor at h3
    rw [decay_log] at h3
    rw [h3, one_pow] at h
    linarith

theorem release_lt_one (hsr : 0 < sr) (r : ℝ) (h0 : 0 < s.linear) (h1 : s.linear ≤ 1) :
    releaseCoefficientFor r s sr < 1 := by
  have hpos : 0 < 10 * s.linear + 1 := by linarith
  have h := (coefficient_pow (L := 1 / (10 * s.linear + 1)) (by positivity) (by rw [div_lt_one hpos]; linarith) r hsr
    (stageFrames r sr)).mpr (le_refl _)
  have h2 := release_range r ⟨h0.le, h1⟩ hsr
  rcases lt_or_eq_of_le h2.2 with h3 | h3
  · exact h3
  · unfold releaseCoefficientFor at h3
    rw [release_log s h0.le] at h3
    rw [h3, one_pow, le_div_iff₀ hpos] at h
    linarith

theorem rises {e : AdsrEnvelope} (hp : e.phase = .attack) (h1 : e.envelope < 1) (hc : e.attackCoefficient < 1) :
    e.envelope < e.process.envelope := by
  unfold AdsrEnvelope.process
  rw [hp]
  refine lt_min ?_ h1
  unfold processExponential attackTarget
  nlinarith

theorem falls {e : AdsrEnvelope} (hp : e.phase = .decay) (h1 : e.sustainLevel.linear < e.envelope)
    (h0 : 0 ≤ e.envelope) (hc : e.decayCoefficient < 1) : e.process.envelope < e.envelope := by
  unfold AdsrEnvelope.process
  rw [hp]
  refine max_lt ?_ h1
  unfold processExponential decayTarget
  nlinarith

theorem fades {e : AdsrEnvelope} (hp : e.phase = .release) (h1 : 0 < e.envelope) (hc : e.releaseCoefficient < 1) :
    e.process.envelope < e.envelope := by
  unfold AdsrEnvelope.process
  rw [hp]
  refine max_lt ?_ h1
  unfold processExponential releaseTarget
  nlinarith

theorem decay_goes_on {e : AdsrEnvelope} (hp : e.phase = .decay) (h : e.sustainLevel.linear < e.process.envelope) :
    e.process.phase = .decay := by
  unfold AdsrEnvelope.process at h ⊢
  rw [hp] at h ⊢
  exact if_neg (not_le.mpr h)

theorem release_goes_on {e : AdsrEnvelope} (hp : e.phase = .release) (h : 0 < e.process.envelope) :
    e.process.phase = .release := by
  unfold AdsrEnvelope.process at h ⊢
  rw [hp] at h ⊢
  exact if_neg (not_le.mpr h)

theorem faded {e : AdsrEnvelope} (hp : e.phase = .release ∨ e.phase = .idle) : (e.process.phase = .release ∨
    e.process.phase = .idle) ∧ (e.process.envelope = 0 → e.process.phase = .idle) := by
  rcases hp with hp | hp
  · unfold AdsrEnvelope.process
    rw [hp]
    dsimp only
    split
    · exact ⟨Or.inr rfl, fun _ => rfl⟩
    · rename_i h
      exact ⟨Or.inl rfl, fun h' => absurd h'.le h⟩
  · unfold AdsrEnvelope.process
    rw [hp]
    exact ⟨Or.inr rfl, fun _ => rfl⟩
/-- The rise of a note. -/
theorem note_rises (hsr : 0 < sr) (hs : 0 ≤ s.linear ∧ s.linear ≤ 1) {e : AdsrEnvelope} (hset : e.Settings sr a d s r)
    (hp : e.phase = .attack) (h0 : e.envelope = 0) (n : Nat) (hn : n < stageFrames a sr) :
    (e.steps n).envelope < (e.steps (n + 1)).envelope := by
  obtain ⟨h1, _⟩ := note_steps hsr hs hset hp h0
  rw [steps_succ]
  exact rises (h1 n hn).2 (h1 n hn).1 (by rw [(hset.steps n).attack]; exact attack_lt_one hsr a)

/-- The fall of a note. -/
theorem note_falls (hsr : 0 < sr) (hs : 0 ≤ s.linear ∧ s.linear ≤ 1) (hs1 : s.linear < 1) {e : AdsrEnvelope} (hok : e.Ok)
    (hset : e.Settings sr a d s r) (hp : e.phase = .attack) (h0 : e.envelope = 0) (n : Nat) (hn : n < stageFrames d sr) :
    (e.steps (stageFrames a sr + n + 1)).envelope < (e.steps (stageFrames a sr + n)).envelope := by
  obtain ⟨_, h2, h3, _⟩ := note_steps hsr hs hset hp h0
  have hph : ∀ m, m < stageFrames d sr → (e.steps (stageFrames a sr + m)).phase = .decay := by
    intro m
    induction m with
    | zero => intro _; rw [Nat.add_zero, h2]
    | succ m ih =>
      intro hm
      have := h3 (m + 1) hm hs1
      rw [← Nat.add_assoc, steps_succ] at this ⊢
      exact decay_goes_on (ih (by omega)) (by rw [(hset.steps _).sustain]; exact this)
  rw [steps_succ]
  refine falls (hph n hn) ?_ (hok.steps _).envelope.1 (by rw [(hset.steps _).decay]; exact decay_lt_one hsr d hs.1 hs1)
  rw [(hset.steps _).sustain]
  exact h3 n hn hs1

/-- While a note fades, it gets quieter frame by frame until it is silent. -/
theorem release_falls (hsr : 0 < sr) (hs0 : 0 < s.linear) (hs : s.linear ≤ 1) {e : AdsrEnvelope} (h : e.Settings sr a d s r)
    (hp : e.phase = .release) (h0 : 0 ≤ e.envelope) (n : Nat) :
    0 ≤ (e.steps n).envelope ∧ (0 < (e.steps n).envelope → (e.steps n).phase = .release ∧
      (e.steps (n + 1)).envelope < (e.steps n).envelope) ∧
      ((e.steps n).envelope = 0 → (e.steps (n + 1)).envelope = 0) := by
  have hc : ∀ n, (e.steps n).releaseCoefficient < 1 := fun n => by
    rw [(h.steps n).release]
    exact release_lt_one hsr r hs0 hs
  have key : ∀ n, 0 ≤ (e.steps n).envelope ∧ (0 < (e.steps n).envelope → (e.steps n).phase = .release) ∧
      ((e.steps n).phase = .release ∨ (e.steps n).phase = .idle) := by
    intro n
    induction n with
    | zero => exact ⟨h0, fun _ => hp, Or.inl hp⟩
    | succ n ih =>
      obtain ⟨i1, i2, i3⟩ := ih
      rw [steps_succ]
      have h1 := faded i3
      refine ⟨?_, ?_, h1.1⟩
      · rcases i3 with i3 | i3
        · unfold AdsrEnvelope.process
          rw [i3]
          exact le_max_right _ _
        · unfold AdsrEnvelope.process
          rw [i3]
      · intro hpos
        rcases i3 with i3 | i3
        · exact release_goes_on i3 hpos
        · unfold AdsrEnvelope.process at hpos
          rw [i3] at hpos
          exact absurd hpos (lt_irrefl _)
  refine ⟨(key n).1, fun hpos => ⟨(key n).2.1 hpos, ?_⟩, fun hz => ?_⟩
  · rw [steps_succ]
    exact fades ((key n).2.1 hpos) hpos (hc n)
  · rw [steps_succ]
    rcases (key n).2.2 with i3 | i3
    · unfold AdsrEnvelope.process
      rw [i3]
      refine max_eq_right ?_
      have := hc n
      rw [hz]
      unfold processExponential releaseTarget
      nlinarith
    · unfold AdsrEnvelope.process
      rw [i3]

/-- The level of a note that fades. -/
theorem release_level (hsr : 0 < sr) (hs0 : 0 < s.linear) (hs : s.linear ≤ 1) {e : AdsrEnvelope}
    (h : e.Settings sr a d s r) (hp : e.phase = .release) (h0 : 0 ≤ e.envelope) (n : Nat) :
    (e.steps n).envelope =
      max (releaseTarget + e.releaseCoefficient ^ n * (e.envelope - releaseTarget)) 0 := by
  have hc1 : e.releaseCoefficient < 1 := by
    rw [h.release]
    exact release_lt_one hsr r hs0 hs
  have hc0 : 0 ≤ e.releaseCoefficient := by
    rw [h.release]
    exact (release_range r ⟨hs0.le, hs⟩ hsr).1
  have hv : 0 < e.envelope - releaseTarget := by unfold releaseTarget; linarith
  have hanti : ∀ n, e.releaseCoefficient ^ (n + 1) * (e.envelope - releaseTarget) ≤
      e.releaseCoefficient ^ n * (e.envelope - releaseTarget) := fun n =>
    mul_le_mul_of_nonneg_right (pow_le_pow_of_le_one hc0 hc1.le (Nat.le_succ n)) hv.le
  induction n with
  | zero =>
    show e.envelope = _
    rw [pow_zero, one_mul, add_sub_cancel, max_eq_left h0]
  | succ n ih =>
    obtain ⟨_, i2, i3⟩ := release_falls hsr hs0 hs h hp h0 n
    rcases le_or_gt (releaseTarget + e.releaseCoefficient ^ n * (e.envelope - releaseTarget)) 0 with hle | hgt
    · rw [max_eq_right hle] at ih
      rw [i3 ih, max_eq_right (by linarith [hanti n])]
    · rw [max_eq_left hgt.le] at ih
      have hph := (i2 (by rw [ih]; exact hgt)).1
      rw [steps_succ]
      have hco : (e.steps n).releaseCoefficient = e.releaseCoefficient := by rw [(h.steps n).release, h.release]
      unfold AdsrEnvelope.process
      rw [hph]
      show max (processExponential (e.steps n).envelope releaseTarget (e.steps n).releaseCoefficient) 0 = _
      rw [hco, ih]
      congr 1
      unfold processExponential
      ring

/-- When a note that fades is silent. -/
theorem release_silent (hsr : 0 < sr) (hs0 : 0 < s.linear) (hs : s.linear ≤ 1) {e : AdsrEnvelope}
    (h : e.Settings sr a d s r) (hp : e.phase = .release) (h0 : 0 ≤ e.envelope) (hr : 0 < r) (n : Nat) :
    (e.steps n).envelope = 0 ↔
      r * sr * Real.log (10 * e.envelope + 1) ≤ n * Real.log (10 * s.linear + 1) := by
  have hs' : (0 : ℝ) < sr := by exact_mod_cast hsr
  have hpos : 0 < 10 * s.linear + 1 := by linarith
  have hv : 0 < 10 * e.envelope + 1 := by linarith
  have hc : e.releaseCoefficient ^ n = Real.exp (-(n * Real.log (10 * s.linear + 1) / (r * sr))) := by
    rw [h.release]
    unfold releaseCoefficientFor coefficient
    rw [release_log s hs0.le, if_neg (not_le.mpr hr), ← Real.exp_nat_mul, one_div, Real.log_inv]
    congr 1
    ring
  rw [release_level hsr hs0 hs h hp h0 n, max_eq_right_iff, hc]
  have e1 : releaseTarget + Real.exp (-(n * Real.log (10 * s.linear + 1) / (r * sr))) * (e.envelope - releaseTarget) ≤ 0 ↔
      10 * e.envelope + 1 ≤ Real.exp (n * Real.log (10 * s.linear + 1) / (r * sr)) := by
    rw [Real.exp_neg]
    have hx := Real.exp_pos (n * Real.log (10 * s.linear + 1) / (r * sr))
    rw [← mul_le_mul_iff_of_pos_left hx]
    unfold releaseTarget
    rw [mul_add, ← mul_assoc, mul_inv_cancel₀ hx.ne', one_mul, mul_zero]
    constructor <;> intro h <;> linarith
  rw [e1, ← Real.log_le_iff_le_exp hv, le_div_iff₀ (by positivity), mul_comm (Real.log (10 * e.envelope + 1))]

end AdsrEnvelope
end Rawdio
