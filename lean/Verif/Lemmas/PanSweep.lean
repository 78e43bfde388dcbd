import Verif.Lemmas.OfflineExample
import Verif.Lemmas.Oscillator
import Verif.Spec.Automation
import Verif.Spec.PanSweep
import Mathlib.Analysis.Real.Pi.Bounds

/-!
# Lemmas for a chord that moves from side to side
-/

namespace Rawdio
namespace OfflineExample

open PanSweep

theorem sine_near' (n : ℕ) (hn : 0 < n) (x : ℝ) :
    |Oscillator.tableAt (Oscillator.makeSine n 1) x - Real.sin (2 * Real.pi * x)| ≤ (2 * Real.pi / n) ^ 2 / 8 := by
  have hl := Oscillator.makeSine_length n 1
  have h := Oscillator.tableAt_near (Oscillator.makeSine n 1) [Level.unity] (by rw [hl]; exact hn) (by
    intro i hi
    rw [hl] at hi
    rw [List.getD_eq_getElem?_getD, Oscillator.makeSine_get _ _ _ hi, hl]
    simp [Oscillator.hsum, Level.unity, Level.fromLinear]) x
  rw [hl] at h
  simpa [Oscillator.hsum, Oscillator.herr, Level.unity, Level.fromLinear] using h

theorem sine_near (x : ℝ) :
    |Oscillator.tableAt (Oscillator.makeSine 8192 1) x - Real.sin (2 * Real.pi * x)| ≤ 1 / 10 ^ 7 := by
  refine (sine_near' 8192 (by norm_num) x).trans ?_
  have h1 := Real.pi_lt_d4
  have h2 := Real.pi_pos
  have h3 : Real.pi ^ 2 < 3.1416 ^ 2 := by nlinarith
  rw [div_pow, mul_pow]
  norm_num at h3 ⊢
  linarith

theorem chord_near (voices : List Voice) (t : ℝ) :
    |(voices.map fun v => Oscillator.tableAt (Oscillator.makeSine 8192 1) (v.frequency * t) * v.level).sum -
      chord (voices.map fun v => (v.frequency, v.level)) t| ≤ (voices.map fun v => |v.level|).sum * (1 / 10 ^ 7) := by
  induction voices with
  | nil => simp [chord]
  | cons v vs ih =>
    simp only [chord, List.map_cons, List.sum_cons, List.map_map] at ih ⊢
    rw [add_sub_add_comm, ← sub_mul, add_mul]
    refine (abs_add_le _ _).trans (add_le_add ?_ ih)
    rw [abs_mul, mul_comm]
    exact mul_le_mul_of_nonneg_left (sine_near _) (abs_nonneg _)

theorem chord_le (tones : List (ℝ × ℝ)) (t : ℝ) : |chord tones t| ≤ (tones.map fun v => |v.2|).sum := by
  induction tones with
  | nil => simp [chord]
  | cons v vs ih =>
    simp only [chord, List.map_cons, List.sum_cons] at ih ⊢
    refine (abs_add_le _ _).trans (add_le_add ?_ ih)
    rw [abs_mul]
    have := Real.abs_sin_le_one (2 * Real.pi * (v.1 * t))
    nlinarith [abs_nonneg v.2]

/-- The points of the pan. -/
def panPoints : List AutomationPoint := [⟨-1, 0, 0⟩, ⟨1, 0, 2 * 2 ^ 32⟩, ⟨-1, 2 * 2 ^ 32, 4 * 2 ^ 32⟩]

theorem panMoves_eq : panMoves.map (ParameterRequest.change "pan") = panPoints.map (Automation.request .linear "pan") := by
  simp [panMoves, panPoints, Automation.request, Timestamp.fromSeconds, Timestamp.roundHalfEven, Timestamp.zero, Timestamp.one]
  norm_num

theorem panPoints_curve {t : Int} (h0 : 0 ≤ t) :
    Automation.curve Automation.linear 0 (panPoints.map (Automation.arriving 0)) t = position ((t : ℝ) / 2 ^ 32) := by
  have h0' : (0 : ℝ) ≤ t := by exact_mod_cast h0
  simp only [panPoints, Automation.arriving, List.map_cons, List.map_nil, Automation.curve, Automation.linear, position]
  norm_num
  have e1 : ((t : ℝ) / 4294967296 < 2) ↔ ((t : ℝ) < 8589934592) := by rw [div_lt_iff₀ (by norm_num)]; norm_num
  have e2 : ((t : ℝ) / 4294967296 < 4) ↔ ((t : ℝ) < 17179869184) := by rw [div_lt_iff₀ (by norm_num)]; norm_num
  rw [if_congr e1 rfl rfl, if_congr e2 rfl rfl]
  split
  · omega
  · split
    · ring
    · split
      · ring
      · rfl

theorem position_near (x y : ℝ) : |position x - position y| ≤ |x - y| := by
  have := le_abs_self (x - y)
  have := neg_abs_le (x - y)
  unfold position
  split_ifs <;> rw [abs_le] <;> constructor <;> linarith

theorem factor_near (c : ℕ) (x y : ℝ) : |factor c x - factor c y| ≤ |x - y| := by
  unfold factor
  refine (abs_min_sub_min_le_max _ _ _ _).trans ?_
  split
  · rw [show 1 + -x - (1 + -y) = -(x - y) by ring, abs_neg]; simp
  · rw [show 1 + x - (1 + y) = x - y by ring]; simp

theorem factor_le {c : ℕ} {x : ℝ} (h : |x| ≤ 1) : |factor c x| ≤ 1 := by
  rw [abs_le] at h
  unfold factor
  rw [abs_le]
  constructor
  · split <;> rw [le_min_iff] <;> constructor <;> linarith
  · exact min_le_right _ _

theorem position_le (x : ℝ) (h : 0 ≤ x) : |position x| ≤ 1 := by
  unfold position
  split_ifs <;> rw [abs_le] <;> constructor <;> linarith

end OfflineExample
end Rawdio
