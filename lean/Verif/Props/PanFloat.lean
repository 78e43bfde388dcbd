import Verif.Lemmas.PanFloat

/-!
# Properties of the pan node with `f32` samples (C110)
-/

namespace Rawdio
namespace Pan

/-- C110: with the pan in range each side comes out as it came in, times its attenuation, with an error of at most
`2^-22 |x| + 2^-150`, and never louder than it came in.  A side is passed on exactly as long as the pan is not beyond the
centre, and it is silent when the pan is at the far end. -/
theorem C110_near (panValues : List Sample32) (input output : Buf Sample32) (h : StereoBlock panValues input output) :
    ∃ out, processAudio32 panValues input output = .ok out ∧ output.SameShape out ∧
      ∀ c f, c < 2 → f < output.frameCount → ∃ x pan y, input.sample? c f = some x ∧ panValues[f]? = some pan ∧
        out.sample? c f = some y ∧ (|pan.1| ≤ 1 →
          |y.1 - x.1 * attenuation (awayFrom c pan)| ≤ |x.1| * (1 / 2 ^ 22) + 1 / 2 ^ 150 ∧ |y.1| ≤ |x.1| ∧
          (awayFrom c pan ≤ 0 → y = x) ∧ (awayFrom c pan = 1 → y = 0)) := by
  obtain ⟨out, h1, h2, h3⟩ := processAudio32_ok h
  refine ⟨out, h1, h2, ?_⟩
  intro c f hc hf
  obtain ⟨x, pan, y, e1, e2, e3, e4⟩ := h3 c f hc hf
  refine ⟨x, pan, y, e1, e2, e3, fun hp => ?_⟩
  have ha : |awayFrom c pan| ≤ 1 := by
    unfold awayFrom
    split_ifs
    · exact hp
    · rwa [abs_neg]
  obtain ⟨k1, k2⟩ := abs_le.mp ha
  have hv := sideGain_val c pan
  obtain ⟨g0, g1, g2, g3⟩ := gain_facts k1 k2
  rw [← hv] at g0 g1 g2 g3
  generalize (if c = 0 then leftGain32 pan else rightGain32 pan) = g at *
  have hga : |g.1| ≤ 1 := by rwa [abs_of_nonneg g0]
  refine ⟨?_, ?_, ?_, ?_⟩
  · have m1 := Sample32.mul_near x g
    rw [← e4] at m1
    have m2 : |x.1 * g.1 - x.1 * attenuation (awayFrom c pan)| ≤ |x.1| * (1 / 2 ^ 24 + 1 / 2 ^ 150) := by
      rw [← mul_sub, abs_mul]
      exact mul_le_mul_of_nonneg_left g2 (abs_nonneg _)
    have m3 := abs_sub_le y.1 (x.1 * g.1) (x.1 * attenuation (awayFrom c pan))
    have m4 : |x.1| * |g.1| * (1 / 2 ^ 24) ≤ |x.1| * (1 / 2 ^ 24) :=
      mul_le_mul_of_nonneg_right (mul_le_of_le_one_right (abs_nonneg _) hga) (by positivity)
    have m5 : |x.1| * (1 / 2 ^ 24) + |x.1| * (1 / 2 ^ 24 + 1 / 2 ^ 150) ≤ |x.1| * (1 / 2 ^ 22) := by
      rw [← mul_add]
      exact mul_le_mul_of_nonneg_left (by norm_num) (abs_nonneg _)
    linarith
  · rw [e4]; exact Sample32.mul_le x g hga
  · intro hc0
    rw [e4, show g = 1 from Subtype.ext (g3 hc0), mul_one]
  · intro hc1
    rw [hc1, sub_self, Float32.round_zero, min_eq_left (by norm_num)] at hv
    rw [e4, show g = 0 from Subtype.ext hv, mul_zero]

/-- C110: of the same sample, a side never comes out louder when the pan is further from it. -/
theorem C110_monotone (panValues panValues' : List Sample32) (input output input' output' out out' : Buf Sample32)
    (h : StereoBlock panValues input output) (h' : StereoBlock panValues' input' output')
    (ho : processAudio32 panValues input output = .ok out) (ho' : processAudio32 panValues' input' output' = .ok out')
    (c f f' : Nat) (hc : c < 2) (hf : f < output.frameCount) (hf' : f' < output'.frameCount)
    (hx : input.sample? c f = input'.sample? c f') (pan pan' y y' : Sample32) (hp : panValues[f]? = some pan)
    (hp' : panValues'[f']? = some pan') (hy : out.sample? c f = some y) (hy' : out'.sample? c f' = some y')
    (hr : |pan.1| ≤ 1) (hr' : |pan'.1| ≤ 1) (hfar : awayFrom c pan ≤ awayFrom c pan') : |y'.1| ≤ |y.1| := by
  obtain ⟨o, h1, _, h3⟩ := processAudio32_ok h
  rw [ho] at h1
  injection h1 with h1
  subst h1
  obtain ⟨o, k1, _, k3⟩ := processAudio32_ok h'
  rw [ho'] at k1
  injection k1 with k1
  subst k1
  obtain ⟨x, p, z, e1, e2, e3, e4⟩ := h3 c f hc hf
  obtain ⟨x', p', z', d1, d2, d3, d4⟩ := k3 c f' hc hf'
  rw [hp] at e2
  rw [hp'] at d2
  rw [hy] at e3
  rw [hy'] at d3
  rw [e1, d1] at hx
  cases e2; cases d2; cases e3; cases d3; cases hx
  have ha : ∀ q : Sample32, |q.1| ≤ 1 → -1 ≤ awayFrom c q ∧ awayFrom c q ≤ 1 := by
    intro q hq
    refine abs_le.mp ?_
    unfold awayFrom
    split_ifs
    · exact hq
    · rwa [abs_neg]
  obtain ⟨a1, a2⟩ := ha pan hr
  obtain ⟨b1, b2⟩ := ha pan' hr'
  rw [d4, e4, Sample32.mul_val, Sample32.mul_val, abs_round, abs_round]
  refine Float32.round_mono (abs_nonneg _) ?_
  rw [abs_mul, abs_mul, sideGain_val, sideGain_val, abs_of_nonneg (gain_facts a1 a2).1, abs_of_nonneg (gain_facts b1 b2).1]
  refine mul_le_mul_of_nonneg_left (min_le_min_right _ ?_) (abs_nonneg _)
  exact Float32.round_mono (by linarith) (by linarith)

/-- C110: mirroring the pan and swapping the sides of the input swaps the sides of the output, to the last digit, in
range or not. -/
theorem C110_mirror (panValues panValues' : List Sample32) (input output input' output' out out' : Buf Sample32)
    (h : StereoBlock panValues input output) (h' : StereoBlock panValues' input' output')
    (ho : processAudio32 panValues input output = .ok out) (ho' : processAudio32 panValues' input' output' = .ok out')
    (f : Nat) (hf : f < output.frameCount) (hf' : f < output'.frameCount)
    (hl : input.sample? 0 f = input'.sample? 1 f) (hr : input.sample? 1 f = input'.sample? 0 f) (pan pan' : Sample32)
    (hp : panValues[f]? = some pan) (hp' : panValues'[f]? = some pan') (hm : pan'.1 = -pan.1) :
    out.sample? 0 f = out'.sample? 1 f ∧ out.sample? 1 f = out'.sample? 0 f := by
  obtain ⟨o, h1, _, h3⟩ := processAudio32_ok h
  rw [ho] at h1
  injection h1 with h1
  subst h1
  obtain ⟨o, k1, _, k3⟩ := processAudio32_ok h'
  rw [ho'] at k1
  injection k1 with k1
  subst k1
  have key : ∀ c c' : Nat, c < 2 → c' < 2 → input.sample? c f = input'.sample? c' f →
      awayFrom c pan = awayFrom c' pan' → out.sample? c f = out'.sample? c' f := by
    intro c c' hc hc' hx ha
    obtain ⟨x, p, z, e1, e2, e3, e4⟩ := h3 c f hc hf
    obtain ⟨x', p', z', d1, d2, d3, d4⟩ := k3 c' f hc' hf'
    rw [hp] at e2
    rw [hp'] at d2
    rw [e1, d1] at hx
    cases e2; cases d2; cases hx
    rw [e3, d3, e4, d4]
    refine congrArg (fun g => some (x * g)) (Subtype.ext ?_)
    rw [sideGain_val, sideGain_val, ha]
  exact ⟨key 0 1 (by omega) (by omega) hl (by simp [awayFrom, hm]), key 1 0 (by omega) (by omega) hr (by simp [awayFrom, hm])⟩

/-- One frame in stereo. -/
def stereo32 (l r : Sample32) : Buf Sample32 := .owned [l, r] 2 1 48000

/-- A pan of 3/4, to the right. -/
def right32 : Sample32 := ⟨3 / 4, by have := Float32.rep_div 3 2 (by norm_num) (by norm_num); norm_num at this; exact this⟩

theorem stereo32_block (p l r : Sample32) : StereoBlock [p] (stereo32 l r) (stereo32 0 0) :=
  ⟨⟨rfl, rfl, trivial, by decide, le_refl _⟩, rfl, rfl, le_refl _⟩

/-- A block that meets the hypotheses of `C110_near`, `C110_monotone` and `C110_mirror`, with the pan in range and not in
the centre. -/
example : StereoBlock [right32] (stereo32 1 1) (stereo32 0 0) ∧ |right32.1| ≤ 1 ∧ awayFrom 0 0 ≤ awayFrom 0 right32 ∧
    ∃ out, processAudio32 [right32] (stereo32 1 1) (stereo32 0 0) = .ok out :=
  ⟨stereo32_block _ _ _, by norm_num [right32], by norm_num [awayFrom, right32, Sample32.zero_val],
    let ⟨o, h, _⟩ := C110_near _ _ _ (stereo32_block right32 1 1); ⟨o, h⟩⟩

end Pan
end Rawdio
