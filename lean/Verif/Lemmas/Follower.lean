import Mathlib.Tactic.Linarith
import Mathlib.Tactic.Positivity
import Mathlib.Tactic.FieldSimp
import Mathlib.Tactic.Ring
import Mathlib.Data.Rat.Floor
import Verif.Model.Follower
import Verif.Lemmas.PoolBuf

/-! # Lemmas on the envelope follower and the periodic notification -/

namespace Rawdio
namespace Follower

theorem coefficient_range (sr : ℝ) (hsr : 0 < sr) (t : Nat) :
    0 ≤ calculateCoefficient sr t ∧ calculateCoefficient sr t < 1 := by
  unfold calculateCoefficient
  split
  · exact ⟨le_refl _, by norm_num⟩
  · rename_i h
    have hp : 0 < sr * ((t : ℝ) / 10 ^ 9) := lt_of_le_of_ne (by positivity) (Ne.symm h)
    refine ⟨(Real.exp_pos _).le, ?_⟩
    rw [Real.exp_lt_one_iff]
    exact div_neg_of_neg_of_pos (by norm_num) hp

/-- The coefficients belong to the times. -/
structure Ok (e : Follower) : Prop where
  rate : 0 < e.sampleRate
  attack : e.attackCoefficient = calculateCoefficient e.sampleRate e.attackTime
  release : e.releaseCoefficient = calculateCoefficient e.sampleRate e.releaseTime
  level : 0 ≤ e.level

theorem new_ok {sr : ℝ} (hsr : 0 < sr) (a r : Nat) : (new sr a r).Ok := ⟨hsr, rfl, rfl, le_refl _⟩

/-- A step with a coefficient in [0, 1). -/
theorem step_between {l x c : ℝ} (h0 : 0 ≤ c) (h1 : c < 1) :
    min l x ≤ l * c + x * (1 - c) ∧ l * c + x * (1 - c) ≤ max l x := by
  have e1 : l * c + x * (1 - c) = x + c * (l - x) := by ring
  rcases le_total l x with h | h
  · rw [min_eq_left h, max_eq_right h]
    constructor <;> nlinarith
  · rw [min_eq_right h, max_eq_left h]
    constructor <;> nlinarith

theorem process_eq (e : Follower) (x : ℝ) : ∃ c, (c = e.attackCoefficient ∨ c = e.releaseCoefficient) ∧
    (e.process x).2 = e.level * c + |x| * (1 - c) ∧ (e.process x).1.level = (e.process x).2 ∧
    (e.process x).1 = { e with level := (e.process x).2 } := by
  by_cases h : e.level < |x|
  · refine ⟨e.attackCoefficient, Or.inl rfl, ?_, rfl, rfl⟩
    unfold process
    simp only [if_pos h]
  · refine ⟨e.releaseCoefficient, Or.inr rfl, ?_, rfl, rfl⟩
    unfold process
    simp only [if_neg h]

theorem Ok.coefficients {e : Follower} (h : e.Ok) :
    (0 ≤ e.attackCoefficient ∧ e.attackCoefficient < 1) ∧ (0 ≤ e.releaseCoefficient ∧ e.releaseCoefficient < 1) := by
  rw [h.attack, h.release]
  exact ⟨coefficient_range _ h.rate _, coefficient_range _ h.rate _⟩

theorem Ok.step {e : Follower} (h : e.Ok) (x : ℝ) :
    min e.level |x| ≤ (e.process x).2 ∧ (e.process x).2 ≤ max e.level |x| := by
  obtain ⟨c, hc, e1, _, _⟩ := process_eq e x
  have hr : 0 ≤ c ∧ c < 1 := by
    rcases hc with rfl | rfl
    · exact h.coefficients.1
    · exact h.coefficients.2
  rw [e1]
  exact step_between hr.1 hr.2

theorem Ok.process {e : Follower} (h : e.Ok) (x : ℝ) : (e.process x).1.Ok := by
  obtain ⟨_, _, _, e2, e3⟩ := process_eq e x
  have h1 := h.step x
  rw [e3]
  exact ⟨h.rate, h.attack, h.release, le_trans (le_min h.level (abs_nonneg _)) h1.1⟩

theorem Ok.setAttack {e : Follower} (h : e.Ok) (t : Nat) : (e.setAttackTime t).Ok ∧
    (e.setAttackTime t).level = e.level := by
  unfold setAttackTime
  split
  · exact ⟨⟨h.rate, rfl, h.release, h.level⟩, rfl⟩
  · exact ⟨h, rfl⟩

theorem Ok.setRelease {e : Follower} (h : e.Ok) (t : Nat) : (e.setReleaseTime t).Ok ∧
    (e.setReleaseTime t).level = e.level := by
  unfold setReleaseTime
  split
  · exact ⟨⟨h.rate, h.attack, rfl, h.level⟩, rfl⟩
  · exact ⟨h, rfl⟩

end Follower

namespace Periodic

/-- The loop, when the fuel suffices, adds a multiple of the interval that brings the time into its range. -/
theorem catchUp_ok {I : ℚ} (hI : 0 < I) (fuel : Nat) : ∀ next : ℚ, next ≤ I → (fuel : ℚ) * I > I - next →
    ∃ k : Nat, catchUp I fuel next = .ok (next + k * I) ∧ 0 < next + k * I ∧ next + k * I ≤ I := by
  induction fuel with
  | zero =>
    intro next h hf
    simp only [Nat.cast_zero, zero_mul] at hf
    linarith
  | succ fuel ih =>
    intro next h hf
    unfold catchUp
    by_cases hn : next ≤ 0
    · rw [if_pos hn]
      push_cast at hf
      obtain ⟨k, e1, e2, e3⟩ := ih (next + I) (by linarith) (by linarith)
      refine ⟨k + 1, ?_, ?_, ?_⟩
      · rw [e1]; push_cast; ring_nf
      · push_cast; linarith
      · push_cast; linarith
    · rw [if_neg hn]
      exact ⟨0, by simp, by simpa using not_le.mp hn, by simpa using h⟩

/-- After `total` frames. -/
structure At (p : Periodic) (I : ℚ) (total : Nat) : Prop where
  interval : p.notificationInterval = I
  pos : 0 < I
  next : p.nextNotification = I * (⌊(total : ℚ) / I⌋ + 1) - total

theorem At.range {p : Periodic} {I : ℚ} {total : Nat} (h : p.At I total) :
    0 < p.nextNotification ∧ p.nextNotification ≤ I := by
  have h1 := Int.lt_floor_add_one ((total : ℚ) / I)
  have h2 := Int.floor_le ((total : ℚ) / I)
  rw [div_lt_iff₀ h.pos] at h1
  rw [le_div_iff₀ h.pos] at h2
  rw [h.next]
  constructor <;> nlinarith

theorem At.advance {p : Periodic} {I : ℚ} {total : Nat} (h : p.At I total) (n fuel : Nat)
    (hf : (n : ℚ) / I + 1 < fuel) :
    ∃ p' b, p.advance fuel n = .ok (p', b) ∧ p'.At I (total + n) ∧
      (b = true ↔ ⌊(total : ℚ) / I⌋ < ⌊((total + n : Nat) : ℚ) / I⌋) := by
  obtain ⟨h0, h1⟩ := h.range
  have hI := h.pos
  have hf' : (fuel : ℚ) * I > I - (p.nextNotification - n) := by
    have := mul_lt_mul_of_pos_right hf hI
    rw [add_mul, div_mul_cancel₀ _ hI.ne'] at this
    linarith
  obtain ⟨k, e1, e2, e3⟩ := catchUp_ok hI fuel (p.nextNotification - n)
    (by have : (0 : ℚ) ≤ n := Nat.cast_nonneg n
        linarith) hf'
  have hfl : ⌊((total + n : Nat) : ℚ) / I⌋ = ⌊(total : ℚ) / I⌋ + k := by
    rw [Int.floor_eq_iff]
    rw [h.next] at e2 e3
    push_cast
    rw [le_div_iff₀ hI, div_lt_iff₀ hI]
    constructor <;> nlinarith
  refine ⟨⟨p.notificationInterval, p.nextNotification - n + k * I⟩, decide (p.nextNotification - n ≤ 0), ?_, ?_, ?_⟩
  · unfold Periodic.advance
    rw [h.interval]
    simp only [e1, bind, Except.bind]
  · refine ⟨h.interval, hI, ?_⟩
    simp only
    rw [hfl, h.next]
    push_cast
    ring
  · rw [hfl, decide_eq_true_eq]
    constructor
    · intro hle
      have : k ≠ 0 := by
        rintro rfl
        simp only [Nat.cast_zero, zero_mul, add_zero] at e2
        linarith
      omega
    · intro hlt
      have hk : (1 : ℚ) ≤ k := by
        have : 1 ≤ k := by omega
        exact_mod_cast this
      nlinarith

theorem new_at {sr : Nat} (hsr : 0 < sr) {f : ℚ} (hf : 0 < f) :
    ∃ p, new sr f = .ok p ∧ p.At (sr / f) 0 := by
  refine ⟨⟨sr / f, sr / f⟩, ?_, rfl, by positivity, ?_⟩
  · unfold new
    rw [if_pos ⟨hsr, hf⟩]
  · simp

end Periodic
end Rawdio
