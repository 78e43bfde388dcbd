import Verif.Model.GainFloat
import Verif.Lemmas.SampleFloat
import Verif.Props.Buffers
import Verif.Props.Buffers2

/-! # Lemmas about the gain of `f32` samples -/

namespace Rawdio
namespace Sample32

theorem mul_val (a b : Sample32) : (a * b).1 = Float32.round (a.1 * b.1) := rfl

theorem one_val : (1 : Sample32).1 = 1 := rfl

instance : MulZeroOneClass Sample32 where
  one_mul a := Subtype.ext (by rw [mul_val, one_val, one_mul, round_of_rep a.2])
  mul_one a := Subtype.ext (by rw [mul_val, one_val, mul_one, round_of_rep a.2])
  zero_mul a := Subtype.ext (by rw [mul_val, zero_val, zero_mul, Float32.round_zero])
  mul_zero a := Subtype.ext (by rw [mul_val, zero_val, mul_zero, Float32.round_zero])

theorem abs_round_le {x y : ℚ} (hy : Float32.Rep y) (h : |x| ≤ y) : |Float32.round x| ≤ y := by
  have key : ∀ x, 0 ≤ x → x ≤ y → |Float32.round x| ≤ y := by
    intro x h0 hx
    rw [abs_of_nonneg (Float32.le_round le_rfl ⟨0, 0, by simp, by norm_num, by norm_num⟩ h0)]
    exact Float32.round_le h0 hy hx
  rcases le_total 0 x with h0 | h0
  · exact key x h0 (by rwa [abs_of_nonneg h0] at h)
  · have := key (-x) (by linarith) (by rwa [abs_of_nonpos h0] at h)
    rwa [Float32.round_neg, abs_neg] at this

theorem rep_abs {x : ℚ} (h : Float32.Rep x) : Float32.Rep |x| := by
  rcases abs_cases x with ⟨e, _⟩ | ⟨e, _⟩ <;> rw [e]
  · exact h
  · exact rep_neg h

theorem mul_le (a g : Sample32) (hg : |g.1| ≤ 1) : |(a * g).1| ≤ |a.1| := by
  rw [mul_val]
  refine abs_round_le (rep_abs a.2) ?_
  rw [abs_mul]
  exact mul_le_of_le_one_right (abs_nonneg _) hg

theorem mul_near (a g : Sample32) : |(a * g).1 - a.1 * g.1| ≤ |a.1| * |g.1| * (1 / 2 ^ 24) + 1 / 2 ^ 150 := by
  rw [mul_val, ← abs_mul]
  exact Float32.round_rel _

theorem relativeEq_zero {g : Sample32} : relativeEq g 0 = true ↔ |g.1| ≤ 1 / 2 ^ 23 := by
  unfold relativeEq
  rw [decide_eq_true_eq, zero_val, sub_zero, round_of_rep g.2, abs_zero, max_eq_left (abs_nonneg _)]
  constructor
  · rintro (h | h | h)
    · rw [h, abs_zero]; positivity
    · exact h
    · have := abs_nonneg g.1
      norm_num at h ⊢
      linarith
  · exact fun h => .inr (.inl h)

theorem relativeEq_one {g : Sample32} (h : relativeEq g 1 = true) : |g.1 - 1| ≤ max 1 |g.1| * (1 / 2 ^ 22) := by
  unfold relativeEq at h
  rw [decide_eq_true_eq, one_val, abs_one, max_comm] at h
  have hM : 1 ≤ max 1 |g.1| := le_max_left ..
  rcases h with h | h
  · rw [h, sub_self, abs_zero]; positivity
  · have h' : |Float32.round (g.1 - 1)| ≤ max 1 |g.1| * (1 / 2 ^ 23) := by
      rcases h with h | h
      · refine h.trans ?_
        exact le_mul_of_one_le_left (by positivity) hM
      · exact h
    have h1 := Float32.round_rel (g.1 - 1)
    have h2 := abs_add_le (Float32.round (g.1 - 1)) (g.1 - 1 - Float32.round (g.1 - 1))
    rw [add_sub_cancel, abs_sub_comm (g.1 - 1)] at h2
    have h3 : (1 : ℚ) / 2 ^ 150 ≤ 1 / 2 ^ 30 := by norm_num
    clear h
    generalize (1 : ℚ) / 2 ^ 150 = u at *
    generalize max 1 |g.1| = M at *
    norm_num at h1 h2 h3 h' ⊢
    linarith

end Sample32

namespace Gain

/-- What `apply_gain` makes of a frame: silence, the same or the product. -/
theorem applyGain32_ok (al : Nat → Nat × Nat) (gain : List Sample32) (b : Buf Sample32) (h3 : b.WF) (h4 : b.Writable)
    (hg : gain.length = b.frameCount) :
    ∃ b', applyGain32 al gain b = .ok b' ∧ b.SameShape b' ∧
      ∀ c f x, c < b.channelCount → f < b.frameCount → b.sample? c f = some x →
        ∃ g y, gain[f]? = some g ∧ b'.sample? c f = some y ∧
          y = if ∀ g ∈ gain, Sample32.relativeEq g 0 = true then 0
            else if ∀ g ∈ gain, Sample32.relativeEq g 1 = true then x else x * g := by
  unfold applyGain32 Buf.applyGain
  by_cases hz : ∀ g ∈ gain, Sample32.relativeEq g 0 = true
  · rw [if_pos (List.all_eq_true.mpr hz)]
    obtain ⟨b2, k1, k2, _, _, k5⟩ := Buf.C36_clear b h3 h4
    refine ⟨b2, k1, k2, ?_⟩
    intro c f x c1 f1 hx
    exact ⟨_, 0, List.getElem?_eq_getElem (by omega), k5 c f c1 f1, by rw [if_pos hz]⟩
  · rw [if_neg (fun h => hz (List.all_eq_true.mp h))]
    by_cases hone : ∀ g ∈ gain, Sample32.relativeEq g 1 = true
    · rw [if_pos (List.all_eq_true.mpr hone)]
      refine ⟨b, rfl, Buf.SameShape.refl _, ?_⟩
      intro c f x c1 f1 hx
      exact ⟨_, x, List.getElem?_eq_getElem (by omega), hx, by rw [if_neg hz, if_pos hone]⟩
    · rw [if_neg (fun h => hone (List.all_eq_true.mp h))]
      obtain ⟨b2, k1, k2, _, _, k5⟩ := Buf.C36_apply_gain (fun _ => false) (fun _ => false) (by simp) (by simp) al b gain
        h3 h4 hg
      have hne : gain ≠ [] := by rintro rfl; exact hz (by simp)
      unfold Buf.applyGain at k1
      have hall : gain.all (fun _ => false) = false := by
        cases gain with
        | nil => exact absurd rfl hne
        | cons a l => rfl
      rw [hall] at k1
      refine ⟨b2, k1, k2, ?_⟩
      intro c f x c1 f1 hx
      refine ⟨_, _, List.getElem?_eq_getElem (by omega), ?_, rfl⟩
      rw [k5 c f c1 f1, hx, List.getElem?_eq_getElem (by omega), if_neg hz, if_neg hone]
      rfl

/-- What the gain node makes of a frame: silence, the input or the product. -/
theorem processAudio32_ok (al : Nat → Nat × Nat) (gain : List Sample32) (input output : Buf Sample32) (hi : input.WF)
    (ho : output.WF) (hw : output.Writable) (hf : output.frameCount ≤ input.frameCount)
    (hg : gain.length = output.frameCount) :
    ∃ b', processAudio32 al gain input output = .ok b' ∧ output.SameShape b' ∧
      ∀ c f x, c < output.channelCount → c < input.channelCount → f < output.frameCount → input.sample? c f = some x →
        ∃ g y, gain[f]? = some g ∧ b'.sample? c f = some y ∧
          y = if ∀ g ∈ gain, Sample32.relativeEq g 0 = true then 0
            else if ∀ g ∈ gain, Sample32.relativeEq g 1 = true then x else x * g := by
  obtain ⟨b1, h1, h2, h3, h4, h5⟩ := Buf.C30_copy_from output input ho hw hi .origin .origin
    (min output.channelCount input.channelCount) output.frameCount (by simp [Loc.origin]) (by simpa [Loc.origin] using hf)
    (by simp [Loc.origin]) (by simp [Loc.origin])
  have e1 : b1.channelCount = output.channelCount := h2.channelCount.symm
  have e2 : b1.frameCount = output.frameCount := h2.frameCount.symm
  obtain ⟨b2, k1, k2, k3⟩ := applyGain32_ok al gain b1 h3 h4 (by omega)
  refine ⟨b2, ?_, h2.trans k2, ?_⟩
  · unfold processAudio32 processAudio
    rw [ok_bind h1]
    exact k1
  · intro c f x c1 c2 f1 hx
    refine k3 c f x (by omega) (by omega) ?_
    rw [h5, if_pos (by simp [Loc.origin]; omega)]
    simpa [Loc.origin] using hx

/-- The error of each of the three cases. -/
theorem gain_error {gain : List Sample32} {x y g : Sample32} (hmem : g ∈ gain)
    (e3 : y = if ∀ g ∈ gain, Sample32.relativeEq g 0 = true then 0
      else if ∀ g ∈ gain, Sample32.relativeEq g 1 = true then x else x * g) :
    |y.1 - x.1 * g.1| ≤ |x.1| * (max 1 |g.1| * (1 / 2 ^ 22)) + 1 / 2 ^ 150 := by
  have hM : 1 ≤ max 1 |g.1| := le_max_left ..
  have hx0 := abs_nonneg x.1
  have hu : (0 : ℚ) ≤ 1 / 2 ^ 150 := by positivity
  split_ifs at e3 with hz ho
  · have := Sample32.relativeEq_zero.mp (hz g hmem)
    rw [e3, Sample32.zero_val, zero_sub, abs_neg, abs_mul]
    have h4 : |g.1| ≤ max 1 |g.1| * (1 / 2 ^ 22) := by
      refine this.trans ?_
      refine le_trans (by norm_num : (1 : ℚ) / 2 ^ 23 ≤ 1 * (1 / 2 ^ 22)) ?_
      exact mul_le_mul_of_nonneg_right hM (by positivity)
    have := mul_le_mul_of_nonneg_left h4 hx0
    linarith
  · have := mul_le_mul_of_nonneg_left (Sample32.relativeEq_one (ho g hmem)) hx0
    rw [e3, abs_sub_comm, show x.1 * g.1 - x.1 = x.1 * (g.1 - 1) by ring, abs_mul]
    linarith
  · rw [e3]
    refine (Sample32.mul_near x g).trans ?_
    have h4 : |g.1| * (1 / 2 ^ 24) ≤ max 1 |g.1| * (1 / 2 ^ 22) :=
      mul_le_mul (le_max_right ..) (by norm_num) (by positivity) (by positivity)
    have := mul_le_mul_of_nonneg_left h4 hx0
    rw [← mul_assoc] at this
    linarith

end Gain
end Rawdio
