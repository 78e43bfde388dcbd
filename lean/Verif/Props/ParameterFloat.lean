import Verif.Lemmas.ParameterFloat
import Verif.Spec.ParameterFloat

/-!
# Linear ramps of parameters in the arithmetic of `f64` (C103)

`Props/Parameter.lean` speaks of the ramps in exact arithmetic.  Here every operation is rounded.
-/

namespace Rawdio
namespace RealtimeParameter

/-! ## C103 -/

/-- C103: in the arithmetic of `f64` a linear ramp follows the straight line with an error that grows with the number
of frames and with the time since the start, and has exactly the target value from its end time on. `M` bounds the
start value and the target, `samplesAt e sr` is the position of the end of the ramp. -/
theorem C103_linear (ln exp : ℚ → ℚ) (sr : Nat) (p : RealtimeParameter ℚ) (w : ℚ) (s e : Int)
    (bs : List (Int × Nat)) (pre : List Int) (t0 : Int) (rest : List Int)
    (h : RampCase sr p w s e bs pre t0 rest) (hv : Float64.Rep p.value) (M : ℚ) (hM : 1 / 2 ^ 900 ≤ M)
    (hvM : |p.value| ≤ M) (hwM : |w| ≤ M) (ht : 0 ≤ t0) (hn : 1 ≤ samplesAt (e - t0) sr)
    (hE : samplesAt e sr ≤ 2 ^ 46)
    (hinc : bs.length = 1 ∨ 1 / 2 ^ 51 < |(w - p.value) / samplesAt (e - t0) sr|) :
    (∀ j, j < pre.length → (processAll (floatArith ln exp) sr p bs).1[j]? = some p.value) ∧
    (∀ (j : Nat) (t : Int), (t0 :: rest)[j]? = some t → t < e → j ≤ samplesAt (e - t0) sr →
      ∃ x, (processAll (floatArith ln exp) sr p bs).1[pre.length + j]? = some x ∧
        |x - straightLine p.value w (samplesAt (e - t0) sr) (j + 1)| ≤
          (64 * (samplesAt e sr / samplesAt (e - t0) sr) + 11 * (j + 1)) * M * (1 / 2 ^ 53)) ∧
    (∀ (j : Nat) (t : Int), (t0 :: rest)[j]? = some t → e ≤ t →
      (processAll (floatArith ln exp) sr p bs).1[pre.length + j]? = some w) := by
  have hET : samplesAt (e - t0) sr = samplesAt e sr - samplesAt t0 sr := by
    unfold samplesAt; push_cast; ring
  have hT : 0 ≤ samplesAt t0 sr := by
    unfold samplesAt
    have : (0 : ℚ) ≤ t0 := by exact_mod_cast ht
    positivity
  obtain ⟨a, ha⟩ : ∃ a, a = (w - p.value) / samplesAt (e - t0) sr := ⟨_, rfl⟩
  obtain ⟨g, hg⟩ : ∃ g, g = slope (floatArith ln exp) w p.value e t0 sr := ⟨_, rfl⟩
  have hg' : g = Float64.round (Float64.round (w - p.value) /
      Float64.round (Float64.round (samplesAt e sr) - Float64.round (samplesAt t0 sr))) := by
    rw [hg]
    unfold slope duration
    rw [asSamples_eq, asSamples_eq]
    rfl
  have hslope : |g - a| ≤ 16 * (samplesAt e sr / samplesAt (e - t0) sr) * |a| * (1 / 2 ^ 53) + 4 * (1 / 2 ^ 1075) := by
    have := slope_float w p.value (samplesAt e sr) (samplesAt t0 sr) hT (by rw [← hET]; exact hn) hE
    rw [← hg', ← hET, ← ha] at this
    exact this
  have hz : (0 : ℚ) < 1 / 2 ^ 1075 ∧ (1 : ℚ) / 2 ^ 1075 * 2 ^ 122 ≤ 1 / 2 ^ 53 * (1 / 2 ^ 900) := by
    constructor
    · positivity
    · rw [show (2 : ℚ) ^ 1075 = 2 ^ 122 * (2 ^ 53 * 2 ^ 900) by rw [← pow_add, ← pow_add]]
      field_simp
      exact le_rfl
  have hE1 : 1 ≤ samplesAt e sr := by linarith
  have hnE : samplesAt (e - t0) sr ≤ samplesAt e sr := by linarith
  rw [← ha] at hinc
  unfold straightLine
  rw [← ha]
  generalize hnn : samplesAt (e - t0) sr = n at *
  generalize samplesAt e sr = E at *
  have hn0 : 0 < n := by linarith
  have hgrep : Float64.Rep g := by rw [hg']; exact Float64.rep_of_round _
  have hEn : 1 ≤ E / n := by rw [one_le_div hn0]; exact hnE
  have hEn' : E / n ≤ 2 ^ 46 := (div_le_self (by linarith) hn).trans hE
  have hM0 : 0 < M := lt_of_lt_of_le (by positivity) hM
  have hzM : (1 : ℚ) / 2 ^ 1075 * 2 ^ 122 ≤ 1 / 2 ^ 53 * M :=
    hz.2.trans (mul_le_mul_of_nonneg_left hM (by positivity))
  have hnear : bs.length = 1 ∨ (floatArith ln exp).near g (floatArith ln exp).zero = false := by
    rcases hinc with h1 | h1
    · exact .inl h1
    right
    have hb : 1 / 2 ^ 52 < |g| := by
      have k1 : 16 * (E / n) * |a| * (1 / 2 ^ 53) ≤ 1 / 8 * |a| := by
        have := mul_le_mul_of_nonneg_right hEn' (abs_nonneg a)
        linarith
      have k2 : |a| ≤ |g| + |g - a| := by
        have := abs_sub_le a g 0
        rw [sub_zero, sub_zero, abs_sub_comm] at this
        linarith
      have k3 : (1 : ℚ) / 2 ^ 1075 ≤ 1 / 2 ^ 60 :=
        one_div_le_one_div_of_le (by positivity) (pow_le_pow_right₀ (by norm_num) (by norm_num))
      have k4 : (4 : ℚ) * (1 / 2 ^ 60) ≤ 1 / 8 * (1 / 2 ^ 51) := by norm_num
      have k5 : (1 : ℚ) / 2 ^ 51 = 2 * (1 / 2 ^ 52) := by norm_num
      linarith
    change decide (g = 0 ∨ |Float64.round (g - 0)| ≤ 1 / 2 ^ 52 ∨
      |Float64.round (g - 0)| ≤ max |g| |0| * (1 / 2 ^ 52)) = false
    rw [sub_zero, Float64.round_of_rep hgrep, abs_zero, max_eq_left (abs_nonneg g)]
    refine decide_eq_false ?_
    have h52 : (0 : ℚ) < 1 / 2 ^ 52 := by positivity
    rintro (h2 | h2 | h2)
    · rw [h2, abs_zero] at hb; linarith
    · linarith
    · have : |g| * (1 / 2 ^ 52) ≤ |g| * (1 / 2) := mul_le_mul_of_nonneg_left (by norm_num) (abs_nonneg g)
      linarith
  obtain ⟨r1, r2⟩ := ramp_values_any (floatArith ln exp) h g hg hnear
  refine ⟨r1, ?_, ?_⟩
  · intro j t hjt hlt hjn
    refine ⟨_, by rw [r2 j t hjt, if_pos hlt], ?_⟩
    change |(fun x => Float64.round (Float64.round (x * 1) + g))^[j + 1] p.value - _| ≤ _
    have hwv : |w - p.value| ≤ 2 * M := by
      refine (abs_sub _ _).trans ?_
      linarith
    have han : |a| * n ≤ 2 * M := by
      rw [ha, abs_div, abs_of_pos hn0, div_mul_cancel₀ _ hn0.ne']
      exact hwv
    have ha0 := abs_nonneg a
    have haM : |a| ≤ 2 * M := le_trans (le_mul_of_one_le_right ha0 hn) han
    have hj1 : ((j + 1 : Nat) : ℚ) ≤ 2 * n := by push_cast; linarith
    have hB : ∀ k : Nat, k ≤ j + 1 → |p.value + k * a| ≤ 5 * M := by
      intro k hk
      refine (abs_add_le _ _).trans ?_
      rw [abs_mul, abs_of_nonneg (by positivity : (0 : ℚ) ≤ k)]
      have : (k : ℚ) ≤ 2 * n := by
        refine le_trans ?_ hj1
        exact_mod_cast hk
      have := mul_le_mul_of_nonneg_right this ha0
      linarith
    obtain ⟨z, hzd⟩ : ∃ z : ℚ, z = 1 / 2 ^ 1075 := ⟨_, rfl⟩
    obtain ⟨u, hud⟩ : ∃ u : ℚ, u = 1 / 2 ^ 53 := ⟨_, rfl⟩
    rw [← hzd] at hz hzM hslope
    rw [← hud] at hzM hslope ⊢
    have hu0 : 0 < u := by rw [hud]; positivity
    have huM : 0 < u * M := by positivity
    have h9 : 9 * z ≤ u * M := by
      have : 9 * z ≤ z * 2 ^ 122 := by
        have : (9 : ℚ) ≤ 2 ^ 122 := by norm_num
        have := mul_le_mul_of_nonneg_left this hz.1.le
        linarith
      linarith
    have hK0 : (0 : ℚ) ≤ ((j + 1 : Nat) : ℚ) := by positivity
    have hD : ((j + 1 : Nat) : ℚ) * (|g - a| + 2 * (5 * M) * u + z) ≤
        (64 * (E / n) + 11 * ((j + 1 : Nat) : ℚ)) * M * u := by
      have k1 : ((j + 1 : Nat) : ℚ) * |a| ≤ 4 * M := by
        have := mul_le_mul_of_nonneg_right hj1 ha0
        linarith
      have k2 : ((j + 1 : Nat) : ℚ) * (16 * (E / n) * |a| * u) ≤ 64 * (E / n) * M * u := by
        have := mul_le_mul_of_nonneg_right k1 (by positivity : 0 ≤ 16 * (E / n) * u)
        linarith
      have k3 := mul_le_mul_of_nonneg_left hslope hK0
      have k4 := mul_le_mul_of_nonneg_left h9 hK0
      have k5 := mul_nonneg hK0 hz.1.le
      linarith
    have hle : (64 * (E / n) + 11 * ((j + 1 : Nat) : ℚ)) * M * u ≤ 5 * M := by
      have k1 : (64 * (E / n) + 11 * ((j + 1 : Nat) : ℚ)) * u ≤ 5 := by
        have k2 : 64 * (E / n) + 11 * ((j + 1 : Nat) : ℚ) ≤ 86 * 2 ^ 46 := by linarith
        have := mul_le_mul_of_nonneg_right k2 hu0.le
        refine this.trans ?_
        rw [hud]
        norm_num
      have := mul_le_mul_of_nonneg_right k1 hM0.le
      linarith
    have hd := (drift p.value a g (5 * M) hv (j + 1) hB (by
      rw [← hzd, ← hud]
      exact hD.trans hle) (j + 1) le_rfl).2
    rw [← hzd, ← hud] at hd
    refine hd.trans (hD.trans ?_)
    push_cast
    exact le_rfl
  · intro j t hjt hle
    rw [r2 j t hjt, if_neg (by omega)]

/-- The values of a ramp that begins with a block: each is the target or belongs to a frame before the end. -/
theorem float_block (ln exp : ℚ → ℚ) {sr n : Nat} (hsr : 0 < sr) {p : RealtimeParameter ℚ} {w : ℚ} {s e t0 : Int}
    {rest : List Int} (h : RampCase sr p w s e [(t0, n)] [] t0 rest) (x : ℚ)
    (hx : x ∈ (processAll (floatArith ln exp) sr p [(t0, n)]).1) :
    ∃ (j : Nat) (t : Int), (processAll (floatArith ln exp) sr p [(t0, n)]).1[j]? = some x ∧
      (t0 :: rest)[j]? = some t ∧ (t < e → (j : ℚ) < samplesAt (e - t0) sr) := by
  obtain ⟨j, hj⟩ := List.getElem?_of_mem hx
  have hlen : (processAll (floatArith ln exp) sr p [(t0, n)]).1.length = (frameTimes sr [(t0, n)]).length := by
    rw [processAll_one, process_steps, steps_length, frameTimes_one]
    unfold isStatic; rw [h.pending]; simp
  have hjl : j < (frameTimes sr [(t0, n)]).length := by
    rw [← hlen]
    by_contra hcon
    rw [List.getElem?_eq_none (by omega)] at hj
    cases hj
  refine ⟨j, Timestamp.incrementedBySamples t0 j sr, hj, ?_, ?_⟩
  · have := h.times
    rw [List.nil_append] at this
    rw [← this, frameTimes_one, List.getElem?_map, List.getElem?_range (by
      rw [frameTimes_one] at hjl; simpa using hjl)]
    rfl
  · intro hlt
    have := frame_before hsr hlt
    unfold rampLength at this
    unfold samplesAt
    exact_mod_cast this

/-- C103 in full: what holds in exact arithmetic (`C19_whole_ramp_between`), that a ramp over a whole number of
samples stays between the start value and the target, holds in the arithmetic of `f64`. -/
def WholeRampsStayBetween : Prop :=
  ∀ (ln exp : ℚ → ℚ) (sr n : Nat) (p : RealtimeParameter ℚ) (w : ℚ) (s e t0 : Int) (rest : List Int) (N : Nat),
    0 < sr → Float64.Rep p.value → Float64.Rep w → RampCase sr p w s e [(t0, n)] [] t0 rest →
    samplesAt (e - t0) sr = N →
    ∀ x ∈ (processAll (floatArith ln exp) sr p [(t0, n)]).1, min p.value w ≤ x ∧ x ≤ max p.value w

/-- C103: a ramp over a whole number of samples leaves the range between the start value and the target by at most
`75 * samplesAt e sr` units of `M / 2 ^ 53`. Missing for the full claim: that it does not leave it at all
(`C103_between_violated`). -/
theorem C103_between_partial (ln exp : ℚ → ℚ) (sr n : Nat) (hsr : 0 < sr) (p : RealtimeParameter ℚ) (w : ℚ)
    (s e t0 : Int) (rest : List Int) (h : RampCase sr p w s e [(t0, n)] [] t0 rest) (hv : Float64.Rep p.value)
    (M : ℚ) (hM : 1 / 2 ^ 900 ≤ M) (hvM : |p.value| ≤ M) (hwM : |w| ≤ M) (ht : 0 ≤ t0) (N : Nat) (hN0 : 0 < N)
    (hN : samplesAt (e - t0) sr = N) (hE : samplesAt e sr ≤ 2 ^ 46) :
    ∀ x ∈ (processAll (floatArith ln exp) sr p [(t0, n)]).1,
      min p.value w - 75 * samplesAt e sr * M * (1 / 2 ^ 53) ≤ x ∧
        x ≤ max p.value w + 75 * samplesAt e sr * M * (1 / 2 ^ 53) := by
  intro x hx
  have hN1 : (1 : ℚ) ≤ N := by exact_mod_cast hN0
  obtain ⟨_, c2, c3⟩ := C103_linear ln exp sr p w s e [(t0, n)] [] t0 rest h hv M hM hvM hwM ht
    (by rw [hN]; exact hN1) hE (.inl rfl)
  obtain ⟨j, t, hj, hjt, hlt⟩ := float_block ln exp hsr h x hx
  have hM0 : 0 < M := lt_of_lt_of_le (by positivity) hM
  have hT : 0 ≤ samplesAt t0 sr := by
    unfold samplesAt
    have : (0 : ℚ) ≤ t0 := by exact_mod_cast ht
    positivity
  have hET : (N : ℚ) = samplesAt e sr - samplesAt t0 sr := by
    rw [← hN]
    unfold samplesAt; push_cast; ring
  have hNE : (N : ℚ) ≤ samplesAt e sr := by linarith
  have hE0 : 0 ≤ samplesAt e sr := by linarith
  by_cases hte : t < e
  · obtain ⟨y, hy, hb⟩ := c2 j t hjt hte (hlt hte).le
    rw [List.length_nil, Nat.zero_add, hj] at hy
    injection hy with hy
    subst hy
    have hjN : j + 1 ≤ N := by
      have := hlt hte
      rw [hN] at this
      have : j < N := by exact_mod_cast this
      omega
    have hjN' : ((j : ℚ) + 1) ≤ N := by exact_mod_cast hjN
    rw [hN] at hb
    have hbound : (64 * (samplesAt e sr / N) + 11 * ((j : ℚ) + 1)) * M * (1 / 2 ^ 53) ≤
        75 * samplesAt e sr * M * (1 / 2 ^ 53) := by
      refine mul_le_mul_of_nonneg_right (mul_le_mul_of_nonneg_right ?_ hM0.le) (by positivity)
      have : samplesAt e sr / N ≤ samplesAt e sr := div_le_self hE0 hN1
      linarith
    have hline : min p.value w ≤ straightLine p.value w N (j + 1) ∧
        straightLine p.value w N (j + 1) ≤ max p.value w := by
      obtain ⟨f, hf⟩ : ∃ f : ℚ, f = ((j : ℚ) + 1) / N := ⟨_, rfl⟩
      have f0 : 0 ≤ f := by rw [hf]; positivity
      have f1 : f ≤ 1 := by rw [hf, div_le_one (by linarith)]; exact hjN'
      have e1 : straightLine p.value w N (j + 1) = p.value + f * (w - p.value) := by
        unfold straightLine
        rw [hf]
        push_cast
        ring
      rw [e1]
      rcases le_total p.value w with hle | hle
      · rw [min_eq_left hle, max_eq_right hle]
        constructor <;> nlinarith
      · rw [min_eq_right hle, max_eq_left hle]
        constructor <;> nlinarith
    have := abs_le.mp (hb.trans hbound)
    constructor <;> linarith [hline.1, hline.2, this.1, this.2]
  · have := c3 j t hjt (by omega)
    rw [List.length_nil, Nat.zero_add, hj] at this
    injection this with this
    subst this
    have h0 : 0 ≤ 75 * samplesAt e sr * M * (1 / 2 ^ 53) := by positivity
    have m1 := min_le_right p.value x
    have m2 := le_max_right p.value x
    constructor <;> linarith

/-- A fade from silence to full volume in 375 samples (7.8125 ms) at 48 kHz. -/
def fade : RealtimeParameter ℚ := ⟨0, [⟨1, 33554432, .linear 0⟩], 0, 1, ⟨0, 0, .immediate⟩⟩

theorem fade_times (m : Nat) : frameTimes 48000 [(0, m + 1)] =
    0 :: (List.range m).map (fun i => Timestamp.incrementedBySamples 0 (i + 1 : Nat) 48000) := by
  rw [frameTimes_one, List.range_succ_eq_map, List.map_cons, List.map_map]
  simp [incremented_zero, Function.comp_def]

theorem fade_case (m : Nat) : RampCase 48000 fade 1 0 33554432 [(0, m + 1)] [] 0
    ((List.range m).map (fun i => Timestamp.incrementedBySamples 0 (i + 1 : Nat) 48000)) := by
  refine ⟨rfl, fade_times m, ?_, (by intro t ht; cases ht), le_refl _, by decide⟩
  rw [frameTimes_one, List.pairwise_map]
  refine List.pairwise_lt_range.imp ?_
  intro a b hab
  unfold Timestamp.incrementedBySamples Timestamp.fromSamples Timestamp.fromSeconds
  have : Timestamp.roundHalfEven ((a : ℚ) / 48000 * Timestamp.one) ≤
      Timestamp.roundHalfEven ((b : ℚ) / 48000 * Timestamp.one) := by
    refine Timestamp.roundHalfEven_mono ?_
    have : (a : ℚ) ≤ b := by exact_mod_cast hab.le
    have h1 : (0 : ℚ) ≤ Timestamp.one := by unfold Timestamp.one; norm_num
    exact mul_le_mul_of_nonneg_right (div_le_div_of_nonneg_right this (by norm_num)) h1
  exact_mod_cast Int.add_le_add_left this 0

theorem tiny_le_one : (1 : ℚ) / 2 ^ 900 ≤ 1 := by
  rw [div_le_one (by positivity)]
  exact one_le_pow₀ (by norm_num)

example : ∃ x, (processAll (floatArith id id) 48000 fade [(0, 375)]).1[100]? = some x ∧
    |x - straightLine 0 1 375 101| ≤ (64 * (375 / 375) + 11 * (100 + 1)) * 1 * (1 / 2 ^ 53) := by
  have hs : samplesAt (33554432 - 0) 48000 = 375 := by unfold samplesAt; norm_num
  have hs' : samplesAt 33554432 48000 = 375 := by unfold samplesAt; norm_num
  obtain ⟨_, h2, _⟩ := C103_linear id id 48000 fade 1 0 33554432 [(0, 374 + 1)] [] 0 _ (fade_case 374)
    ⟨0, 0, by simp [fade], by norm_num, by norm_num⟩ 1 tiny_le_one (by simp [fade]) (by norm_num) le_rfl
    (by rw [hs]; norm_num) (by rw [hs']; norm_num) (.inl rfl)
  obtain ⟨x, hx, hb⟩ := h2 100 (Timestamp.incrementedBySamples 0 (99 + 1 : Nat) 48000) (by simp) (by
    simp [Timestamp.incrementedBySamples, Timestamp.fromSamples, Timestamp.fromSeconds,
      Timestamp.roundHalfEven, Timestamp.one]
    norm_num) (by rw [hs]; norm_num)
  rw [hs, hs'] at hb
  refine ⟨x, by simpa using hx, ?_⟩
  simpa [fade] using hb

example : ∀ x ∈ (processAll (floatArith id id) 48000 fade [(0, 375)]).1, x ≤ 1 + 75 * 375 * (1 / 2 ^ 53) := by
  have hs : samplesAt (33554432 - 0) 48000 = ((375 : Nat) : ℚ) := by unfold samplesAt; norm_num
  have hs' : samplesAt 33554432 48000 = 375 := by unfold samplesAt; norm_num
  intro x hx
  have := (C103_between_partial id id 48000 375 (by norm_num) fade 1 0 33554432 0 _ (fade_case 374)
    ⟨0, 0, by simp [fade], by norm_num, by norm_num⟩ 1 tiny_le_one (by simp [fade]) (by norm_num) le_rfl
    375 (by norm_num) hs (by rw [hs']; norm_num) x hx).2
  rw [hs'] at this
  simpa [fade] using this

/-- C103: the fade of 375 samples at 48 kHz reaches more than full volume in its last frame. -/
theorem C103_fade_violated (ln exp : ℚ → ℚ) :
    (processAll (floatArith ln exp) 48000 fade [(0, 375)]).1[374]? = some (1 + 28 / 2 ^ 52) := by
  have hg : slope (floatArith ln exp) 1 0 33554432 0 48000 = fadeStep / 2 ^ 61 := by
    unfold slope duration
    rw [asSamples_eq, asSamples_eq]
    change Float64.round (Float64.round (1 - 0) / Float64.round
      (Float64.round (((33554432 : ℤ) : ℚ) * (48000 : ℕ) / 2 ^ 32) - Float64.round (((0 : ℤ) : ℚ) * (48000 : ℕ) / 2 ^ 32))) = _
    have r1 : Float64.round (1 - 0) = 1 := by
      rw [sub_zero]
      exact Float64.round_of_rep ⟨1, 0, by norm_num, by norm_num, by norm_num⟩
    have r2 : Float64.round (((33554432 : ℤ) : ℚ) * (48000 : ℕ) / 2 ^ 32) = 375 := by
      have : ((33554432 : ℤ) : ℚ) * (48000 : ℕ) / 2 ^ 32 = 375 := by norm_num
      rw [this]
      exact Float64.round_of_rep ⟨375, 0, by norm_num, by norm_num, by norm_num⟩
    have r3 : Float64.round (((0 : ℤ) : ℚ) * (48000 : ℕ) / 2 ^ 32) = 0 := by
      have : ((0 : ℤ) : ℚ) * (48000 : ℕ) / 2 ^ 32 = 0 := by norm_num
      rw [this]
      exact Float32.round64_zero
    have r4 : Float64.round (375 - 0) = 375 := by
      rw [sub_zero]
      exact Float64.round_of_rep ⟨375, 0, by norm_num, by norm_num, by norm_num⟩
    rw [r1, r2, r3, r4]
    exact fadeStep_eq
  obtain ⟨_, h2⟩ := ramp_values_any (floatArith ln exp) (fade_case 374) _ hg.symm (.inl rfl)
  have h3 := h2 374 (Timestamp.incrementedBySamples 0 (373 + 1 : Nat) 48000) (by simp)
  rw [if_pos (by
    simp [Timestamp.incrementedBySamples, Timestamp.fromSamples, Timestamp.fromSeconds,
      Timestamp.roundHalfEven, Timestamp.one]
    norm_num)] at h3
  rw [List.length_nil, Nat.zero_add] at h3
  have h4 : (fun x => (floatArith ln exp).add ((floatArith ln exp).mul x (floatArith ln exp).one)
      (fadeStep / 2 ^ 61))^[374 + 1] fade.value = 1 + 28 / 2 ^ 52 := by
    have h5 := fade_iterate (374 + 1)
    have h6 : fadeValue (374 + 1) = 2 ^ 61 + 28 * 2 ^ 9 := by decide +kernel
    rw [h6] at h5
    refine h5.trans ?_
    norm_num
  exact h3.trans (congrArg some h4)

/-- C103: in the arithmetic of `f64`, ramps over a whole number of samples do not stay between the start value and
the target. -/
theorem C103_between_violated : ¬ WholeRampsStayBetween := by
  intro h
  have h1 := C103_fade_violated id id
  have h2 := (h id id 48000 375 fade 1 0 33554432 0 _ 375 (by norm_num)
    ⟨0, 0, by simp [fade], by norm_num, by norm_num⟩ ⟨1, 0, by norm_num, by norm_num, by norm_num⟩ (fade_case 374)
    (by unfold samplesAt; norm_num) _ (List.mem_of_getElem? h1)).2
  simp only [fade] at h2
  norm_num at h2

end RealtimeParameter
end Rawdio
