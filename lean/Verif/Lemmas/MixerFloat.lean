import Verif.Model.MixerFloat
import Verif.Spec.MixerFloat
import Verif.Lemmas.GainFloat
import Verif.Lemmas.ParameterFloat

/-! # Lemmas about the mixer with `f32` samples -/

namespace Rawdio
namespace Mixer32

open Buf

/-- What is added for an input. -/
def term (level : ℚ) (x : Sample32) : Sample32 :=
  if isZero level = true then 0 else if isUnity level = true then x else x * asLinear32 level

/-- The samples of the input, 0 where there are none. -/
def at32 (b : Buf Sample32) (c f : Nat) : Sample32 := (b.sample? c f).getD 0

theorem at32_of {b : Buf Sample32} {c f : Nat} {x : Sample32} (h : b.sample? c f = some x) : at32 b c f = x := by
  unfold at32; rw [h]; rfl

theorem at32_val (b : Buf Sample32) (c f : Nat) : (at32 b c f).1 = sampleAt b c f := by
  unfold at32 sampleAt
  cases b.sample? c f <;> rfl

theorem mixOne_ok (al : Nat → Nat × Nat) (level : Nat → Nat → ℚ) {input output : Buf Sample32}
    (hi : input.WF) (ho : output.WF) (hw : output.Writable) (hf : output.frameCount ≤ input.frameCount)
    {o i : Nat} (hoc : o < output.channelCount) (hic : i < input.channelCount) :
    ∃ out, mixOne al level input output o i = .ok out ∧ output.SameShape out ∧ out.WF ∧ out.Writable ∧
      ∀ c f, c < output.channelCount → f < output.frameCount → out.sample? c f = some
        (if c = o then at32 output c f + term (level i o) (at32 input i f) else at32 output c f) := by
  have hsome : ∀ c f, c < output.channelCount → f < output.frameCount →
      output.sample? c f = some (at32 output c f) := by
    intro c f hc hf
    obtain ⟨v, hv⟩ := sample?_isSome output ho c f hc hf
    rw [at32_of hv, hv]
  have hsome' : ∀ f, f < output.frameCount → input.sample? i f = some (at32 input i f) := by
    intro f hf'
    obtain ⟨v, hv⟩ := sample?_isSome input hi i f hic (by omega)
    rw [at32_of hv, hv]
  unfold mixOne term
  by_cases h0 : isZero (level i o) = true
  · simp only [h0, if_true]
    refine ⟨output, rfl, SameShape.refl _, ho, hw, ?_⟩
    intro c f hc hf
    rw [hsome c f hc hf, add_zero, ite_self]
  · by_cases h1 : isUnity (level i o) = true
    · simp only [h0, h1, if_true]
      obtain ⟨b, e1, e2, e3, e4, e5⟩ := C30_add_from al output input ho hw hi (Loc.ofChannel i) (Loc.ofChannel o)
        1 output.frameCount (by simp only [Loc.ofChannel]; omega) (by simp only [Loc.ofChannel]; omega)
        (by simp only [Loc.ofChannel]; omega) (by simp only [Loc.ofChannel]; omega)
      refine ⟨b, e1, e2, e3, e4, ?_⟩
      intro c f hc hf
      rw [e5 c f]
      simp only [Loc.ofChannel, Nat.zero_add, Nat.sub_zero, Nat.zero_le, true_and]
      by_cases hco : c = o
      · subst hco
        rw [if_pos ⟨le_refl _, by omega, hf⟩, if_pos rfl, Nat.sub_self, Nat.add_zero, hsome' f hf, hsome c f hc hf]
        rfl
      · rw [if_neg (by omega), if_neg hco, hsome c f hc hf]
    · simp only [h0, h1]
      obtain ⟨b, e1, e2, e3, e4, e5⟩ := C30_add_from_with_gain al output input ho hw hi (Loc.ofChannel i)
        (Loc.ofChannel o) 1 output.frameCount (asLinear32 (level i o)) (by simp only [Loc.ofChannel]; omega)
        (by simp only [Loc.ofChannel]; omega)
        (by simp only [Loc.ofChannel]; omega) (by simp only [Loc.ofChannel]; omega)
      refine ⟨b, e1, e2, e3, e4, ?_⟩
      intro c f hc hf
      rw [e5 c f]
      simp only [Loc.ofChannel, Nat.zero_add, Nat.sub_zero, Nat.zero_le, true_and]
      by_cases hco : c = o
      · subst hco
        rw [if_pos ⟨le_refl _, by omega, hf⟩, if_pos rfl, Nat.sub_self, Nat.add_zero, hsome' f hf, hsome c f hc hf]
        rfl
      · rw [if_neg (by omega), if_neg hco, hsome c f hc hf]

/-- What is added up for an output, by the first `n` inputs. -/
def terms (level : Nat → Nat → ℚ) (input : Buf Sample32) (o f n : Nat) : List Sample32 :=
  (List.range n).map fun i => term (level i o) (at32 input i f)

theorem mixOutput_ok (al : Nat → Nat → Nat × Nat) (level : Nat → Nat → ℚ) {input output : Buf Sample32}
    (hi : input.WF) (ho : output.WF) (hw : output.Writable) (hf : output.frameCount ≤ input.frameCount)
    {o : Nat} (hoc : o < output.channelCount) (n : Nat) (hn : n ≤ input.channelCount) :
    ∃ out, (List.range n).foldlM (fun output i => mixOne (al i) level input output o i) output = .ok out ∧
      output.SameShape out ∧ out.WF ∧ out.Writable ∧
      ∀ c f, c < output.channelCount → f < output.frameCount → out.sample? c f = some
        (if c = o then (terms level input o f n).foldl (· + ·) (at32 output c f) else at32 output c f) := by
  induction n with
  | zero =>
    refine ⟨output, rfl, SameShape.refl _, ho, hw, ?_⟩
    intro c f hc hf
    obtain ⟨v, hv⟩ := sample?_isSome output ho c f hc hf
    rw [at32_of hv, hv]
    simp [terms]
  | succ n ih =>
    obtain ⟨out, e1, e2, e3, e4, e5⟩ := ih (by omega)
    have hcc := e2.channelCount
    have hfc := e2.frameCount
    obtain ⟨out', d1, d2, d3, d4, d5⟩ := mixOne_ok (al n) level hi e3 e4 (by omega) (o := o) (i := n) (by omega) (by omega)
    refine ⟨out', ?_, e2.trans d2, d3, d4, ?_⟩
    · rw [List.range_succ, List.foldlM_append, e1]
      simp only [List.foldlM_cons, List.foldlM_nil, bind_pure]
      exact d1
    · intro c f hc hf'
      rw [d5 c f (by omega) (by omega), at32_of (e5 c f hc hf')]
      by_cases h : c = o
      · simp [h, terms, List.range_succ]
      · simp [h]

theorem mixAll_ok (al : Nat → Nat → Nat → Nat × Nat) (level : Nat → Nat → ℚ)
    {input output : Buf Sample32} (hi : input.WF) (ho : output.WF) (hw : output.Writable)
    (hf : output.frameCount ≤ input.frameCount) (n : Nat) (hn : n ≤ output.channelCount) :
    ∃ out, (List.range n).foldlM (fun output o => (List.range input.channelCount).foldlM
        (fun output i => mixOne (al o i) level input output o i) output) output = .ok out ∧
      output.SameShape out ∧ out.WF ∧ out.Writable ∧
      ∀ c f, c < output.channelCount → f < output.frameCount → out.sample? c f = some
        (if c < n then (terms level input c f input.channelCount).foldl (· + ·) (at32 output c f)
          else at32 output c f) := by
  induction n with
  | zero =>
    refine ⟨output, rfl, SameShape.refl _, ho, hw, ?_⟩
    intro c f hc hf
    obtain ⟨v, hv⟩ := sample?_isSome output ho c f hc hf
    rw [at32_of hv, hv]
    simp
  | succ n ih =>
    obtain ⟨out, e1, e2, e3, e4, e5⟩ := ih (by omega)
    have hcc := e2.channelCount
    have hfc := e2.frameCount
    obtain ⟨out', d1, d2, d3, d4, d5⟩ := mixOutput_ok (al n) level hi e3 e4 (by omega) (o := n) (by omega)
      input.channelCount (le_refl _)
    refine ⟨out', ?_, e2.trans d2, d3, d4, ?_⟩
    · rw [List.range_succ, List.foldlM_append, e1]
      simp only [List.foldlM_cons, List.foldlM_nil, bind_pure]
      exact d1
    · intro c f hc hf'
      rw [d5 c f (by omega) (by omega), at32_of (e5 c f hc hf')]
      by_cases h1 : c = n
      · subst h1
        rw [if_pos rfl, if_neg (by omega), if_pos (by omega)]
      · by_cases h2 : c < n
        · rw [if_neg h1, if_pos h2, if_pos (by omega)]
        · rw [if_neg h1, if_neg h2, if_neg (by omega)]

theorem processAudio_ok (al : Nat → Nat → Nat → Nat × Nat) (level : Nat → Nat → ℚ) {input output : Buf Sample32}
    (hv : ValidBlock input output) :
    ∃ out, processAudio al level input output = .ok out ∧ output.SameShape out ∧
      ∀ c f, c < output.channelCount → f < output.frameCount → out.sample? c f = some
        ((terms level input c f input.channelCount).foldl (· + ·) (at32 output c f)) := by
  obtain ⟨out, e1, e2, _, _, e5⟩ := mixAll_ok al level hv.inWF hv.outWF hv.writable hv.enough output.channelCount le_rfl
  refine ⟨out, e1, e2, fun c f hc hf => ?_⟩
  rw [e5 c f hc hf, if_pos hc]

theorem near_of_relativeEq64 {a b : ℚ} (hb : |b| ≤ 1) (h : relativeEq64 a b = true) :
    |a - b| ≤ max 1 |a| * (1 / 2 ^ 51) := by
  unfold relativeEq64 at h
  rw [decide_eq_true_eq] at h
  have hM : 1 ≤ max 1 |a| := le_max_left ..
  rcases h with h | h
  · rw [h, sub_self, abs_zero]; positivity
  · have hab : max |a| |b| ≤ max 1 |a| := max_le (le_max_right ..) (hb.trans hM)
    have h' : |Float64.round (a - b)| ≤ max 1 |a| * (1 / 2 ^ 52) := by
      rcases h with h | h
      · exact h.trans (le_mul_of_one_le_left (by positivity) hM)
      · exact h.trans (mul_le_mul_of_nonneg_right hab (by positivity))
    have h1 := Float64.round_rel (a - b)
    have h2 := abs_add_le (Float64.round (a - b)) (a - b - Float64.round (a - b))
    rw [add_sub_cancel, abs_sub_comm (a - b)] at h2
    have h3 : (1 : ℚ) / 2 ^ 1075 ≤ 1 / 2 ^ 60 := by
      refine one_div_le_one_div_of_le (by positivity) (pow_le_pow_right₀ (by norm_num) (by norm_num))
    generalize (1 : ℚ) / 2 ^ 1075 = u at *
    generalize max 1 |a| = M at *
    clear h hab
    norm_num at *
    linarith

/-- The error of what is added for an input. -/
theorem term_near (L : ℚ) (x : Sample32) :
    |(term L x).1 - x.1 * L| ≤ |x.1| * max 1 |L| * (1 / 2 ^ 22) + 1 / 2 ^ 150 := by
  have hM : 1 ≤ max 1 |L| := le_max_left ..
  have hL : |L| ≤ max 1 |L| := le_max_right ..
  have hx := abs_nonneg x.1
  have hu : (0 : ℚ) ≤ 1 / 2 ^ 150 := by positivity
  have key : ∀ b : ℚ, |L - b| ≤ max 1 |L| * (1 / 2 ^ 51) → |x.1| * |L - b| ≤ |x.1| * max 1 |L| * (1 / 2 ^ 22) := by
    intro b h
    rw [mul_assoc]
    refine mul_le_mul_of_nonneg_left (h.trans ?_) hx
    exact mul_le_mul_of_nonneg_left (by norm_num) (by positivity)
  unfold term
  split_ifs with h0 h1
  · have := key 0 (near_of_relativeEq64 (by norm_num) h0)
    rw [sub_zero] at this
    rw [Sample32.zero_val, zero_sub, abs_neg, abs_mul]
    linarith
  · have := key 1 (near_of_relativeEq64 (by norm_num) h1)
    rw [abs_sub_comm, show x.1 * L - x.1 = x.1 * (L - 1) by ring, abs_mul]
    linarith
  · have m1 := Sample32.mul_near x (asLinear32 L)
    have m2 : |(asLinear32 L).1 - L| ≤ |L| * (1 / 2 ^ 24) + 1 / 2 ^ 150 := Float32.round_rel L
    have m4 : |(asLinear32 L).1| ≤ |L| + |(asLinear32 L).1 - L| := by
      have := abs_add_le L ((asLinear32 L).1 - L)
      rwa [add_sub_cancel] at this
    have m5 : |L| * (1 / 2 ^ 24) + 1 / 2 ^ 150 ≤ max 1 |L| * (1 / 2 ^ 23) := by
      have : (1 : ℚ) / 2 ^ 150 ≤ max 1 |L| * (1 / 2 ^ 24) :=
        (by norm_num : (1 : ℚ) / 2 ^ 150 ≤ 1 * (1 / 2 ^ 24)).trans (mul_le_mul_of_nonneg_right hM (by positivity))
      have h2 := mul_le_mul_of_nonneg_right hL (by positivity : (0 : ℚ) ≤ 1 / 2 ^ 24)
      linarith
    have m6 : |(asLinear32 L).1| ≤ max 1 |L| * 2 := by
      have : max 1 |L| * (1 / 2 ^ 23) ≤ max 1 |L| * 1 := mul_le_mul_of_nonneg_left (by norm_num) (by positivity)
      linarith
    have m7 : |x.1 * (asLinear32 L).1 - x.1 * L| ≤ |x.1| * (max 1 |L| * (1 / 2 ^ 23)) := by
      rw [← mul_sub, abs_mul]
      exact mul_le_mul_of_nonneg_left (m2.trans m5) hx
    have m8 : |x.1| * |(asLinear32 L).1| * (1 / 2 ^ 24) ≤ |x.1| * (max 1 |L| * 2) * (1 / 2 ^ 24) :=
      mul_le_mul_of_nonneg_right (mul_le_mul_of_nonneg_left m6 hx) (by positivity)
    have m9 := abs_sub_le (x * asLinear32 L).1 (x.1 * (asLinear32 L).1) (x.1 * L)
    have : |x.1| * max 1 |L| * (1 / 2 ^ 22) = |x.1| * (max 1 |L| * 2) * (1 / 2 ^ 24) + |x.1| * (max 1 |L| * (1 / 2 ^ 23)) := by
      ring
    linarith

/-- The sums of what is added for the inputs. -/
theorem terms_near (level : Nat → Nat → ℚ) (input : Buf Sample32) (o f : Nat) : ∀ n : Nat,
    |exactMix (terms level input o f n) - ((List.range n).map fun i => sampleAt input i f * level i o).sum| ≤
        ((List.range n).map fun i => |sampleAt input i f| * max 1 |level i o|).sum * (1 / 2 ^ 22) + n * (1 / 2 ^ 150) ∧
      mixLevel (terms level input o f n) ≤
        ((List.range n).map fun i => |sampleAt input i f| * max 1 |level i o|).sum * 2 + n * (1 / 2 ^ 150)
  | 0 => by simp [terms, exactMix, mixLevel]
  | n + 1 => by
    obtain ⟨h1, h2⟩ := terms_near level input o f n
    have ht := term_near (level n o) (at32 input n f)
    have e1 : exactMix (terms level input o f (n + 1)) =
        exactMix (terms level input o f n) + (term (level n o) (at32 input n f)).1 := by
      simp [exactMix, terms, List.range_succ]
    have e2 : mixLevel (terms level input o f (n + 1)) =
        mixLevel (terms level input o f n) + |(term (level n o) (at32 input n f)).1| := by
      simp [mixLevel, terms, List.range_succ]
    rw [e1, e2]
    simp only [List.range_succ, List.map_append, List.sum_append, List.map_cons, List.map_nil, List.sum_cons, List.sum_nil,
      add_zero]
    rw [at32_val] at ht
    generalize (term (level n o) (at32 input n f)).1 = t at *
    generalize sampleAt input n f = x at *
    have a1 := abs_add_le (exactMix (terms level input o f n) -
      ((List.range n).map fun i => sampleAt input i f * level i o).sum) (t - x * level n o)
    rw [sub_add_sub_comm] at a1
    have a2 : |t| ≤ |x| * |level n o| + |t - x * level n o| := by
      have := abs_add_le (x * level n o) (t - x * level n o)
      rwa [add_sub_cancel, abs_mul] at this
    have a3 : |x| * |level n o| ≤ |x| * max 1 |level n o| := mul_le_mul_of_nonneg_left (le_max_right ..) (abs_nonneg _)
    have a4 : 0 ≤ |x| * max 1 |level n o| := by positivity
    have a5 : |x| * max 1 |level n o| * (1 / 2 ^ 22) ≤ |x| * max 1 |level n o| * 1 :=
      mul_le_mul_of_nonneg_left (by norm_num) a4
    push_cast
    constructor
    · linarith
    · linarith

end Mixer32
end Rawdio
