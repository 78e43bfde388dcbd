import Verif.Lemmas.MixerFloat

/-!
# Properties of the mixer node with `f32` samples (C111)
-/

namespace Rawdio
namespace Mixer32

/-- C111: each sample of an output of the mixer is what was there and the sum of the inputs times their levels, with an
error of at most `n (2^-21 A + 2^-148)` for `n` inputs, where `A` is the size of what is added up. -/
theorem C111_near (al : Nat → Nat → Nat → Nat × Nat) (level : Nat → Nat → ℚ) (input output : Buf Sample32)
    (hv : ValidBlock input output) (hn : input.channelCount ≤ 2 ^ 20) :
    ∃ out, processAudio al level input output = .ok out ∧ output.SameShape out ∧
      ∀ o f, o < output.channelCount → f < output.frameCount → ∃ y, out.sample? o f = some y ∧
        |y.1 - exactOut level input output o f| ≤
          input.channelCount * (size level input output o f * (1 / 2 ^ 21) + 1 / 2 ^ 148) := by
  obtain ⟨out, h1, h2, h3⟩ := processAudio_ok al level hv
  refine ⟨out, h1, h2, fun o f ho hf => ⟨_, h3 o f ho hf, ?_⟩⟩
  have hlen : (terms level input o f input.channelCount).length = input.channelCount := by simp [terms]
  have hm := Sample32.mix_from (A := |(at32 output o f).1| + mixLevel (terms level input o f input.channelCount)) rfl
    (terms level input o f input.channelCount) (at32 output o f) (at32 output o f).1 0 (by omega) (by simp) le_rfl
  obtain ⟨t1, t2⟩ := terms_near level input o f input.channelCount
  rw [hlen, Nat.zero_add, at32_val] at hm
  unfold exactOut size
  have hW : 0 ≤ ((List.range input.channelCount).map fun i => |sampleAt input i f| * max 1 |level i o|).sum := by
    apply List.sum_nonneg
    intro x hx
    obtain ⟨i, _, rfl⟩ := List.mem_map.mp hx
    positivity
  have hW0 : input.channelCount = 0 →
      ((List.range input.channelCount).map fun i => |sampleAt input i f| * max 1 |level i o|).sum = 0 := by
    intro h
    rw [h]
    rfl
  generalize ((List.range input.channelCount).map fun i => |sampleAt input i f| * max 1 |level i o|).sum = W at *
  generalize ((List.range input.channelCount).map fun i => sampleAt input i f * level i o).sum = T at *
  generalize ((terms level input o f input.channelCount).foldl (· + ·) (at32 output o f)).1 = y at *
  generalize exactMix (terms level input o f input.channelCount) = E at *
  generalize mixLevel (terms level input o f input.channelCount) = B at *
  generalize sampleAt output o f = s at *
  have hs := abs_nonneg s
  have hu : (0 : ℚ) ≤ 1 / 2 ^ 150 := by positivity
  have a1 := abs_add_le (y - (s + E)) (E - T)
  rw [show y - (s + E) + (E - T) = y - (s + T) by ring] at a1
  have hN : (input.channelCount : ℚ) ≤ 2 ^ 20 := by exact_mod_cast hn
  rcases Nat.eq_zero_or_pos input.channelCount with h0 | h0
  · rw [hW0 h0, h0] at t1
    rw [h0] at hm ⊢
    push_cast at hm t1 ⊢
    linarith
  · have h0' : (1 : ℚ) ≤ input.channelCount := by exact_mod_cast h0
    generalize (input.channelCount : ℚ) = n at *
    have b1 : n * ((|s| + B) * (1 / 2 ^ 23) + 1 / 2 ^ 149) ≤
        n * ((|s| + (W * 2 + 2 ^ 20 * (1 / 2 ^ 150))) * (1 / 2 ^ 23) + 1 / 2 ^ 149) := by
      refine mul_le_mul_of_nonneg_left ?_ (by linarith)
      have := mul_le_mul_of_nonneg_right hN hu
      have : |s| + B ≤ |s| + (W * 2 + 2 ^ 20 * (1 / 2 ^ 150)) := by linarith
      have := mul_le_mul_of_nonneg_right this (by positivity : (0 : ℚ) ≤ 1 / 2 ^ 23)
      linarith
    have b2 : W * (1 / 2 ^ 22) + n * (1 / 2 ^ 150) ≤ n * (W * (1 / 2 ^ 22) + 1 / 2 ^ 150) := by
      rw [mul_add]
      have := le_mul_of_one_le_left (by positivity : 0 ≤ W * (1 / 2 ^ 22)) h0'
      linarith
    have b3 : n * ((|s| + (W * 2 + 2 ^ 20 * (1 / 2 ^ 150))) * (1 / 2 ^ 23) + 1 / 2 ^ 149) +
        n * (W * (1 / 2 ^ 22) + 1 / 2 ^ 150) ≤ n * ((|s| + W) * (1 / 2 ^ 21) + 1 / 2 ^ 148) := by
      rw [← mul_add]
      refine mul_le_mul_of_nonneg_left ?_ (by linarith)
      have e1 : (1 : ℚ) / 2 ^ 149 = 2 * (1 / 2 ^ 150) := by norm_num
      have e2 : (1 : ℚ) / 2 ^ 148 = 4 * (1 / 2 ^ 150) := by norm_num
      rw [e1, e2]
      generalize (1 : ℚ) / 2 ^ 150 = u at *
      norm_num
      linarith
    linarith

theorem isZero_zero : isZero 0 = true := by simp [isZero, relativeEq64]

theorem isUnity_one : isUnity 1 = true := by simp [isUnity, relativeEq64]

theorem isZero_one : ¬ isZero 1 = true := by
  intro h
  have := near_of_relativeEq64 (by norm_num) h
  norm_num at this

/-- C111: an output that was silent and takes one input at level 1 and the others at level 0 is that input, to the last
digit: channels are routed without any change. -/
theorem C111_route (al : Nat → Nat → Nat → Nat × Nat) (level : Nat → Nat → ℚ) (input output out : Buf Sample32)
    (hv : ValidBlock input output) (ho : processAudio al level input output = .ok out) (o f i : Nat)
    (hoc : o < output.channelCount) (hf : f < output.frameCount) (hi : i < input.channelCount)
    (hs : output.sample? o f = some 0) (h1 : level i o = 1) (h0 : ∀ j < input.channelCount, j ≠ i → level j o = 0) :
    out.sample? o f = input.sample? i f := by
  obtain ⟨out', k1, _, k3⟩ := processAudio_ok al level hv
  rw [ho] at k1
  injection k1 with k1
  subst k1
  have hen := hv.enough
  obtain ⟨x, hx⟩ := Buf.sample?_isSome input hv.inWF i f hi (by omega)
  rw [k3 o f hoc hf, hx, at32_of hs]
  have key : ∀ n, n ≤ input.channelCount → (terms level input o f n).foldl (· + ·) 0 = if i < n then x else 0 := by
    intro n
    induction n with
    | zero => intro _; simp [terms]
    | succ n ih =>
      intro hn
      have e : terms level input o f (n + 1) = terms level input o f n ++ [term (level n o) (at32 input n f)] := by
        simp [terms, List.range_succ]
      rw [e, List.foldl_append, ih (by omega), List.foldl_cons, List.foldl_nil]
      by_cases hni : n = i
      · subst hni
        rw [if_neg (by omega), if_pos (by omega), zero_add, h1, at32_of hx, term, if_neg isZero_one, if_pos isUnity_one]
      · rw [h0 n (by omega) hni, term, if_pos isZero_zero, add_zero]
        by_cases h : i < n
        · rw [if_pos h, if_pos (by omega)]
        · rw [if_neg h, if_neg (by omega)]
  rw [key _ le_rfl, if_pos hi]

/-- A block of one frame with two inputs and one output. -/
def mixIn32 : Buf Sample32 := .owned [1, 1] 2 1 48000

/-- An output for the example. -/
def mixOut32 : Buf Sample32 := .owned [0] 1 1 48000

/-- A block that meets the hypotheses of `C111_near` and `C111_route`, with the second input alone. -/
example : ValidBlock mixIn32 mixOut32 ∧ mixIn32.channelCount ≤ 2 ^ 20 ∧ mixOut32.sample? 0 0 = some 0 ∧
    (∀ j < mixIn32.channelCount, j ≠ 1 → (fun i _ => if i = 1 then (1 : ℚ) else 0 : Nat → Nat → ℚ) j 0 = 0) ∧
    ∃ out, processAudio (fun _ _ _ => (0, 0)) (fun i _ => if i = 1 then 1 else 0) mixIn32 mixOut32 = .ok out := by
  have hv : ValidBlock mixIn32 mixOut32 := ⟨rfl, rfl, trivial, by decide, le_refl _⟩
  refine ⟨hv, by decide, rfl, fun j _ h => if_neg h, ?_⟩
  obtain ⟨out, h, _⟩ := C111_near (fun _ _ _ => (0, 0)) (fun i _ => if i = 1 then 1 else 0) mixIn32 mixOut32 hv (by decide)
  exact ⟨out, h⟩

end Mixer32
end Rawdio
