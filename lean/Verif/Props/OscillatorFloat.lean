import Mathlib.Analysis.Real.Pi.Bounds
import Mathlib.Analysis.SpecialFunctions.Trigonometric.Bounds
import Verif.Lemmas.Oscillator
import Verif.Lemmas.OscillatorFloat

/-!
# The oscillator with the rounding of `f64` and `f32` (C102)
-/

namespace Rawdio
namespace Oscillator64

open Float64 Buf

theorem start : At 0 0 0 := ⟨le_rfl, zero_le_one, ⟨0, 0, by simp, by norm_num, by norm_num⟩, 0, by simp⟩

theorem frequencies_length (blocks : List (List (ℚ × ℚ))) : (frequencies blocks).length = blocks.flatten.length := by
  simp only [frequencies, List.length_map]

theorem range_flatten {sr : ℕ} (hsr : 0 < sr) {blocks : List (List (ℚ × ℚ))}
    (hf : ∀ f ∈ frequencies blocks, 0 ≤ f ∧ f ≤ sr) : ∀ x ∈ blocks.flatten, 0 ≤ x.2 / sr ∧ x.2 / sr ≤ 1 := by
  intro x hx
  obtain ⟨h1, h2⟩ := hf x.2 (List.mem_map_of_mem hx)
  have hp : (0 : ℚ) < sr := by exact_mod_cast hsr
  exact ⟨div_nonneg h1 hp.le, (div_le_one hp).mpr h2⟩

/-- C102: with every operation on the phase rounded to `f64`, after any number of blocks of any frequencies up to the sample
rate, the phase is the cycles gone by less a whole number, with an error of at most 3 * 2^-54 of a cycle for each frame. -/
theorem C102_phase (fuel sr : Nat) (hfuel : 2 ≤ fuel) (hsr : 0 < sr) (table : List ℚ) (ht : 0 < table.length)
    (ht' : table.length < 2 ^ 52) (blocks : List (List (ℚ × ℚ)))
    (hf : ∀ f ∈ frequencies blocks, 0 ≤ f ∧ f ≤ sr) (o : Oscillator64) (outs : List (List ℚ))
    (h : (new table).play fuel sr blocks = .ok (o, outs)) :
    0 ≤ o.phase ∧ o.phase ≤ 1 ∧
      NearWhole ((frequencies blocks).length * (3 / 2 ^ 54)) (cycles sr (frequencies blocks) - o.phase) := by
  have h1 := (play_fill fuel sr blocks (new table)).2 o outs h
  rcases fill_cases hfuel sr table ht ht' blocks.flatten (range_flatten hsr hf) 0 0 0 start with
    ⟨p', values, i1, i2, -⟩ | ⟨i1, -⟩
  · rw [show (⟨0, table⟩ : Oscillator64) = new table from rfl, h1] at i1
    simp only [Except.ok.injEq, Prod.mk.injEq] at i1
    obtain ⟨⟨⟩, -⟩ := i1
    obtain ⟨a1, a2, -, k, hk⟩ := i2
    refine ⟨a1, a2, k, ?_⟩
    have e : cycles sr (frequencies blocks) - p' - k = -(p' + k - (0 + cycles sr (blocks.flatten.map Prod.snd))) := by
      unfold frequencies
      ring
    rw [e, abs_neg]
    refine hk.trans (le_of_eq ?_)
    rw [frequencies_length, zero_add]
  · rw [show (⟨0, table⟩ : Oscillator64) = new table from rfl, h1] at i1
    simp at i1

/-- C102, partial: with rounding, for tables of any length, the processor does not read outside its table unless, at the end of
some frame, the cycles gone by are within the error of the phase of a whole number; the loop that wraps the phase always
ends.  Missing: the frames at which they are (see `C102_exact_violated`). -/
theorem C102_reads_partial (fuel sr : Nat) (hfuel : 2 ≤ fuel) (hsr : 0 < sr) (table : List ℚ) (ht : 0 < table.length)
    (ht' : table.length < 2 ^ 52) (blocks : List (List (ℚ × ℚ)))
    (hf : ∀ f ∈ frequencies blocks, 0 ≤ f ∧ f ≤ sr) :
    (∃ o outs, (new table).play fuel sr blocks = .ok (o, outs) ∧
      outs.map List.length = blocks.map List.length) ∨
    ((new table).play fuel sr blocks = .error .panic ∧ ∃ n < (frequencies blocks).length,
      NearWhole (((n + 1 : ℕ) : ℚ) * (3 / 2 ^ 54)) (cycles sr ((frequencies blocks).take (n + 1)))) := by
  rcases fill_cases hfuel sr table ht ht' blocks.flatten (range_flatten hsr hf) 0 0 0 start with
    ⟨p', values, i1, -⟩ | ⟨i1, n, i2, i3⟩
  · left
    cases h : (new table).play fuel sr blocks with
    | error e =>
      have := ((play_fill fuel sr blocks (new table)).1 e).mp h
      rw [show new table = (⟨0, table⟩ : Oscillator64) from rfl, i1] at this
      simp at this
    | ok r => exact ⟨r.1, r.2, rfl, play_length fuel sr blocks _ r.1 r.2 h⟩
  · right
    refine ⟨((play_fill fuel sr blocks (new table)).1 .panic).mpr i1, n, by rw [frequencies_length]; exact i2, ?_⟩
    simpa only [zero_add, frequencies] using i3

/-- C102, violated: when no operation on the phase rounds, because the frequencies are multiples of 2^-52 of the sample rate, the
processor panics as soon as the cycles gone by come to a whole number at the end of a frame, whatever the table; and only
then. -/
theorem C102_exact_violated (fuel sr : Nat) (hfuel : 2 ≤ fuel) (table : List ℚ) (ht : 0 < table.length)
    (ht' : table.length < 2 ^ 52) (blocks : List (List (ℚ × ℚ)))
    (hf : ∀ f ∈ frequencies blocks, ∃ q : ℕ, 0 < q ∧ q ≤ 2 ^ 52 ∧ f / sr = q / 2 ^ 52) :
    ((∃ n < (frequencies blocks).length, ∃ k : ℤ, cycles sr ((frequencies blocks).take (n + 1)) = k) →
      (new table).play fuel sr blocks = .error .panic) ∧
    ((∀ n < (frequencies blocks).length, ∀ k : ℤ, cycles sr ((frequencies blocks).take (n + 1)) ≠ k) →
      ∃ r, (new table).play fuel sr blocks = .ok r) := by
  obtain ⟨h1, h2⟩ := fill_exact hfuel sr table ht ht' blocks.flatten (fun x hx => hf x.2 (List.mem_map_of_mem hx)) 0 0
    ⟨0, by norm_num, by simp⟩ ⟨0, by simp⟩
  simp only [zero_add] at h1 h2
  constructor
  · rintro ⟨n, hn, k, hk⟩
    exact ((play_fill fuel sr blocks (new table)).1 .panic).mpr (h1 ⟨n, by rw [← frequencies_length]; exact hn, k, hk⟩)
  · intro hno
    obtain ⟨r, hr⟩ := h2 (fun n hn k => hno n (by rw [frequencies_length]; exact hn) k)
    cases h : (new table).play fuel sr blocks with
    | error e =>
      have := ((play_fill fuel sr blocks (new table)).1 e).mp h
      rw [show new table = (⟨0, table⟩ : Oscillator64) from rfl, hr] at this
      simp at this
    | ok r' => exact ⟨r', rfl⟩

/-- C102, violated: 375 Hz at 48 kHz is the 128th part of the sample rate, so the 128th frame panics, whatever the table and however
the frames are divided into blocks. -/
theorem C102_375_hertz_violated (fuel : Nat) (hfuel : 2 ≤ fuel) (table : List ℚ) (ht : 0 < table.length)
    (ht' : table.length < 2 ^ 52) (blocks : List (List (ℚ × ℚ))) (hf : ∀ f ∈ frequencies blocks, f = 375)
    (hl : 128 ≤ (frequencies blocks).length) : (new table).play fuel 48000 blocks = .error .panic := by
  refine (C102_exact_violated fuel 48000 hfuel table ht ht' blocks (fun f h => ⟨2 ^ 45, by norm_num, by norm_num, ?_⟩)).1
    ⟨127, by omega, 1, ?_⟩
  · rw [hf f h]
    norm_num
  · have e : (frequencies blocks).take (127 + 1) = List.replicate 128 375 := by
      rw [List.eq_replicate_iff]
      refine ⟨by simp; omega, fun f h => hf f (List.mem_of_mem_take h)⟩
    rw [e, cycles, List.map_replicate, List.sum_replicate]
    norm_num

/-- Blocks of 64 and 128 frames of 1000 Hz, and their frequencies. -/
example : (∀ f ∈ frequencies [List.replicate 64 (0, 1000), List.replicate 128 (0, 1000)], (0 : ℚ) ≤ f ∧ f ≤ (44100 : ℕ)) ∧
    ∃ o outs, (new [0, 1, 0, -1]).play 2 44100 [[(0, 1000)], []] = .ok (o, outs) := by
  refine ⟨?_, ?_⟩
  · intro f hf
    obtain ⟨x, hx, rfl⟩ := List.mem_map.mp hf
    simp only [List.flatten_cons, List.flatten_nil, List.append_nil, List.mem_append] at hx
    have : x = (0, 1000) := by
      rcases hx with hx | hx
      · exact List.eq_of_mem_replicate hx
      · exact List.eq_of_mem_replicate hx
    rw [this]
    norm_num
  · rcases C102_reads_partial 2 44100 le_rfl (by norm_num) [0, 1, 0, -1] (by simp) (by norm_num) [[(0, 1000)], []] (by
      intro f hf
      have : f = 1000 := by simpa [frequencies] using hf
      subst this
      norm_num) with ⟨o, outs, h, -⟩ | ⟨-, n, hn, k, hk⟩
    · exact ⟨o, outs, h⟩
    · exfalso
      obtain rfl : n = 0 := by simp [frequencies] at hn; omega
      have e : cycles 44100 ((frequencies [[(0, 1000)], []]).take (0 + 1)) = 10 / 441 := by
        simp [frequencies, cycles]
        norm_num
      rw [e, abs_le] at hk
      norm_num at hk
      have h1 : (0 : ℚ) < k + 1 := by linarith [hk.2]
      have h2 : (k : ℚ) < 1 := by linarith [hk.1]
      have h3 : 0 < k + 1 := by exact_mod_cast h1
      have h4 : k < 1 := by exact_mod_cast h2
      obtain rfl : k = 0 := by omega
      norm_num at hk

example : (∀ f ∈ frequencies [List.replicate 64 (0, 375), List.replicate 64 (0, 375)], f = 375) ∧
    128 ≤ (frequencies [List.replicate 64 (0, 375), List.replicate 64 (0, 375)]).length := by
  constructor
  · intro f hf
    obtain ⟨x, hx, rfl⟩ := List.mem_map.mp hf
    simp only [List.flatten_cons, List.flatten_nil, List.append_nil, List.mem_append] at hx
    have : x = (0, 375) := by
      rcases hx with hx | hx
      · exact List.eq_of_mem_replicate hx
      · exact List.eq_of_mem_replicate hx
    rw [this]
  · simp [frequencies_length]

/-- The error of the roundings between two samples of the table. -/
theorem interpolate_error {a b w : ℚ} (ha : |a| ≤ 3 / 2) (hb : |b| ≤ 3 / 2) (h0 : 0 ≤ w) (h1 : w < 1) :
    |interpolate a b (Float64.round w) - ((1 - w) * a + w * b)| ≤ 1 / 2 ^ 50 := by
  obtain ⟨w', hw⟩ : ∃ w', w' = Float64.round w := ⟨_, rfl⟩
  have w0 : 0 ≤ w' := by rw [hw]; exact round_nonneg h0
  have w1 : w' ≤ 1 := by rw [hw]; exact round_le h0 rep_one h1.le
  have we : |w' - w| ≤ 1 / 2 ^ 54 := by
    have := round_error_lt (x := w) (e := -1) (by norm_num) (by rw [abs_of_nonneg h0]; norm_num; exact h1)
    rw [← hw] at this
    refine this.trans (le_of_eq ?_)
    norm_num
  unfold interpolate
  rw [← hw]
  obtain ⟨c, hc⟩ : ∃ c, c = Float64.round (1 - w') := ⟨_, rfl⟩
  have c0 : 0 ≤ c := by rw [hc]; exact round_nonneg (by linarith)
  have c1 : c ≤ 1 := by rw [hc]; exact round_le (by linarith) rep_one (by linarith)
  have ce : |c - (1 - w')| ≤ 1 / 2 ^ 53 := by
    have := round_error_lt (x := 1 - w') (e := 0) (by norm_num) (by rw [abs_of_nonneg (by linarith)]; norm_num; linarith)
    rw [← hc] at this
    refine this.trans (le_of_eq ?_)
    norm_num
  rw [← hc]
  have hca : |c * a| ≤ 3 / 2 := by
    rw [abs_mul, abs_of_nonneg c0]
    nlinarith [abs_nonneg a]
  have hwb : |w' * b| ≤ 3 / 2 := by
    rw [abs_mul, abs_of_nonneg w0]
    nlinarith [abs_nonneg b]
  have e1 := round_error_lt (x := c * a) (e := 0) (by norm_num) (hca.trans_lt (by norm_num))
  have e2 := round_error_lt (x := w' * b) (e := 0) (by norm_num) (hwb.trans_lt (by norm_num))
  generalize Float64.round (c * a) = t1 at e1 ⊢
  generalize Float64.round (w' * b) = t2 at e2 ⊢
  have z : (2 : ℚ) ^ ((0 : ℤ) - 53) = 1 / 2 ^ 53 := by norm_num
  rw [z] at e1 e2
  have hs : |t1 + t2| < 2 ^ ((1 : ℤ) + 1) := by
    have a1 := abs_le.mp e1
    have a2 := abs_le.mp e2
    have a3 := abs_le.mp hca
    have a4 := abs_le.mp hwb
    rw [abs_lt]
    norm_num at a1 a2 ⊢
    constructor <;> linarith
  have e3 := round_error_lt (x := t1 + t2) (e := 1) (by norm_num) hs
  have z2 : (2 : ℚ) ^ ((1 : ℤ) - 53) = 1 / 2 ^ 52 := by norm_num
  rw [z2] at e3
  generalize Float64.round (t1 + t2) = t at e3 ⊢
  have e4 : |(c - (1 - w')) * a| ≤ 1 / 2 ^ 53 * (3 / 2) := by
    rw [abs_mul]
    exact mul_le_mul ce ha (abs_nonneg _) (by positivity)
  have e5 : |(w' - w) * (b - a)| ≤ 1 / 2 ^ 54 * 3 := by
    rw [abs_mul]
    refine mul_le_mul we ?_ (abs_nonneg _) (by positivity)
    have := abs_sub b a
    linarith
  have e : t - ((1 - w) * a + w * b) =
      (t - (t1 + t2)) + (t1 - c * a) + (t2 - w' * b) + (c - (1 - w')) * a + (w' - w) * (b - a) := by ring
  rw [e]
  have f1 := abs_add_le ((t - (t1 + t2)) + (t1 - c * a) + (t2 - w' * b) + (c - (1 - w')) * a) ((w' - w) * (b - a))
  have f2 := abs_add_le ((t - (t1 + t2)) + (t1 - c * a) + (t2 - w' * b)) ((c - (1 - w')) * a)
  have f3 := abs_add_le ((t - (t1 + t2)) + (t1 - c * a)) (t2 - w' * b)
  have f4 := abs_add_le (t - (t1 + t2)) (t1 - c * a)
  refine f1.trans ?_
  have : (1 : ℚ) / 2 ^ 52 + 1 / 2 ^ 53 + 1 / 2 ^ 53 + 1 / 2 ^ 53 * (3 / 2) + 1 / 2 ^ 54 * 3 ≤ 1 / 2 ^ 50 := by norm_num
  linarith

/-- A sample of the table of a sine, or the 0 after the last one. -/
theorem sineTable_get {table : List ℚ} (h : SineTable table) (i : ℕ) (hi : i ≤ 8192) :
    |(table.getD i 0 : ℝ) - Real.sin (2 * Real.pi * (i / 8192))| ≤ 1 / 2 ^ 50 := by
  rcases hi.eq_or_lt with rfl | hi
  · rw [List.getD_eq_getElem?_getD, List.getElem?_eq_none (by rw [h.1])]
    have : Real.sin (2 * Real.pi * (((8192 : ℕ) : ℝ) / 8192)) = 0 := by
      rw [show 2 * Real.pi * (((8192 : ℕ) : ℝ) / 8192) = 2 * Real.pi by push_cast; ring, Real.sin_two_pi]
    rw [this]
    simp
  · exact h.2 i hi

/-- A value of the sine oscillator, before the conversion to `f32`. -/
theorem sine_value {table : List ℚ} (h : SineTable table) {p v : ℚ} (h0 : 0 ≤ p) (h1 : p < 1) (hr : Rep p)
    (hv : (⟨p, table⟩ : Oscillator64).getValue = .ok v) :
    |(v : ℝ) - Real.sin (2 * Real.pi * p)| ≤ 1 / 10 ^ 7 - 1 / 10 ^ 8 := by
  have hlen := h.1
  have g := (getValue_cases ⟨p, table⟩ h0 h1.le hr (by simp only [hlen]; norm_num) (by simp only [hlen]; norm_num)).2 h1
  simp only [hlen] at g
  have hx : Float64.round (p * ((8192 : ℕ) : ℚ)) = p * 8192 := by
    push_cast
    refine round_rep (by positivity) ?_
    obtain ⟨m, e, rfl, hm, he⟩ := hr
    refine ⟨m, e + 13, ?_, hm, by omega⟩
    rw [zpow_add₀ (by norm_num)]
    norm_num
    ring
  rw [hx, hv] at g
  simp only [Except.ok.injEq] at g
  obtain ⟨x, hxd⟩ : ∃ x, x = p * 8192 := ⟨_, rfl⟩
  rw [← hxd] at g
  have x0 : 0 ≤ x := by rw [hxd]; positivity
  have x1 : x < 8192 := by rw [hxd]; linarith
  obtain ⟨i, hi⟩ : ∃ i, i = ⌊x⌋₊ := ⟨_, rfl⟩
  have hfi : (⌊x⌋ : ℚ) = i := by
    rw [hi, ← Int.natCast_floor_eq_floor x0]
    norm_cast
  have i1 : (i : ℚ) ≤ x := by rw [hi]; exact Nat.floor_le x0
  have i2 : x < i + 1 := by rw [hi]; exact Nat.lt_floor_add_one x
  have i3 : i < 8192 := by
    have : (i : ℚ) < 8192 := by linarith
    exact_mod_cast this
  rw [← hi, hfi] at g
  obtain ⟨w, hw⟩ : ∃ w, w = x - i := ⟨_, rfl⟩
  rw [← hw] at g
  have w0 : 0 ≤ w := by rw [hw]; linarith
  have w1 : w < 1 := by rw [hw]; linarith
  have hj : ⌈x⌉₊ ≤ 8192 := by rw [Nat.ceil_le]; push_cast; linarith
  have ta := sineTable_get h i i3.le
  have tb := sineTable_get h ⌈x⌉₊ hj
  have tc := sineTable_get h (i + 1) i3
  have bound : ∀ (q : ℚ) (y : ℝ), |(q : ℝ) - Real.sin y| ≤ 1 / 2 ^ 50 → |q| ≤ 3 / 2 := by
    intro q y hq
    have s1 := Real.sin_le_one y
    have s2 := Real.neg_one_le_sin y
    have s3 := abs_le.mp hq
    have : |(q : ℝ)| ≤ 3 / 2 := by
      rw [abs_le]
      norm_num at s3 ⊢
      constructor <;> linarith
    rw [← Rat.cast_abs] at this
    have h2 : ((|q| : ℚ) : ℝ) ≤ ((3 / 2 : ℚ) : ℝ) := by push_cast; push_cast at this; exact this
    exact_mod_cast h2
  have er := interpolate_error (bound _ _ ta) (bound _ _ tb) w0 w1
  rw [← g] at er
  -- to the reals
  have er' : |(v : ℝ) - ((1 - (w : ℝ)) * (table.getD i 0 : ℚ) + w * (table.getD ⌈x⌉₊ 0 : ℚ))| ≤ 1 / 2 ^ 50 := by
    have : ((|v - ((1 - w) * table.getD i 0 + w * table.getD ⌈x⌉₊ 0)| : ℚ) : ℝ) ≤ ((1 / 2 ^ 50 : ℚ) : ℝ) := by
      exact_mod_cast er
    push_cast at this
    exact this
  have w0' : (0 : ℝ) ≤ w := by exact_mod_cast w0
  have w1' : (w : ℝ) < 1 := by exact_mod_cast w1
  have hwb : |(w : ℝ) * ((table.getD ⌈x⌉₊ 0 : ℚ) - Real.sin (2 * Real.pi * (((i + 1 : ℕ) : ℝ) / 8192)))| ≤
      w * (1 / 2 ^ 50) := by
    rw [abs_mul, abs_of_nonneg w0']
    rcases w0.eq_or_lt with hz | hz
    · rw [← hz]
      simp
    · have : ⌈x⌉₊ = i + 1 := by
        rw [Nat.ceil_eq_iff (by omega)]
        constructor
        · simp only [Nat.add_sub_cancel]
          linarith
        · push_cast
          linarith
      rw [this]
      exact mul_le_mul_of_nonneg_left tc w0'
  have hwa : |(1 - (w : ℝ)) * ((table.getD i 0 : ℚ) - Real.sin (2 * Real.pi * ((i : ℝ) / 8192)))| ≤
      (1 - w) * (1 / 2 ^ 50) := by
    rw [abs_mul, abs_of_nonneg (by linarith)]
    exact mul_le_mul_of_nonneg_left ta (by linarith)
  have ch := Oscillator.sine_chord (2 * Real.pi * ((i : ℝ) / 8192)) (2 * Real.pi / 8192) w ⟨w0', w1'.le⟩
  have e1 : 2 * Real.pi * ((i : ℝ) / 8192) + 2 * Real.pi / 8192 = 2 * Real.pi * (((i + 1 : ℕ) : ℝ) / 8192) := by
    push_cast
    ring
  have e2 : 2 * Real.pi * ((i : ℝ) / 8192) + w * (2 * Real.pi / 8192) = 2 * Real.pi * p := by
    have : (w : ℝ) = p * 8192 - i := by
      rw [hw, hxd]
      push_cast
      ring
    rw [this]
    ring
  rw [e1, e2] at ch
  have hpi : (2 * Real.pi / 8192) ^ 2 / 8 ≤ 8 / 10 ^ 8 := by
    have p1 := Real.pi_lt_d4
    have p2 := Real.pi_pos
    have p3 : Real.pi ^ 2 < 3.1416 ^ 2 := by nlinarith
    rw [div_pow, mul_pow]
    norm_num at p3 ⊢
    linarith
  have k1 := abs_le.mp er'
  have k2 := abs_le.mp hwb
  have k3 := abs_le.mp hwa
  have k4 := abs_le.mp (ch.trans hpi)
  rw [abs_le]
  norm_num at k1 k2 k3 k4 ⊢
  constructor <;> nlinarith

/-- C102: with rounding everywhere, from the division of the frequency by the sample rate to the conversion to `f32`, the sine
oscillator plays at each frame a sine of the exact cycles gone by, with an error of at most 10^-7 of the straight lines
between the samples of the table, 2^-24 of the conversion to `f32`, and 2^-49 for each frame so far; however the frequency moves
and the frames are divided into blocks. -/
theorem C102_sine (fuel sr : Nat) (hfuel : 2 ≤ fuel) (hsr : 0 < sr) (table : List ℚ) (ht : SineTable table)
    (blocks : List (List (ℚ × ℚ))) (hf : ∀ f ∈ frequencies blocks, 0 ≤ f ∧ f ≤ sr) (o : Oscillator64)
    (outs : List (List ℚ)) (h : (new table).play fuel sr blocks = .ok (o, outs)) :
    outs.map List.length = blocks.map List.length ∧
    ∀ n < (frequencies blocks).length, ∃ x, outs.flatten[n]? = some x ∧
      |(x : ℝ) - Real.sin (2 * Real.pi * (cycles sr ((frequencies blocks).take (n + 1)) : ℚ))| ≤
        1 / 10 ^ 7 + 1 / 2 ^ 24 + (n + 1) * (1 / 2 ^ 49) := by
  refine ⟨play_length fuel sr blocks _ o outs h, ?_⟩
  have h1 := (play_fill fuel sr blocks (new table)).2 o outs h
  intro n hn
  rcases fill_cases hfuel sr table (by rw [ht.1]; norm_num) (by rw [ht.1]; norm_num) blocks.flatten (range_flatten hsr hf) 0 0 0
      start with ⟨p', values, i1, i2, i3, i4⟩ | ⟨i1, -⟩
  · rw [show (⟨0, table⟩ : Oscillator64) = new table from rfl, h1] at i1
    simp only [Except.ok.injEq, Prod.mk.injEq] at i1
    obtain ⟨-, rfl⟩ := i1
    obtain ⟨q, v, ⟨a1, a2, a3, k, hk⟩, q1, q2, q3⟩ := i4 n (by rw [← frequencies_length]; exact hn)
    refine ⟨_, q3, ?_⟩
    have sv := sine_value ht a1 q1 a3 q2
    obtain ⟨c, hc⟩ : ∃ c, c = cycles sr ((frequencies blocks).take (n + 1)) := ⟨_, rfl⟩
    rw [show blocks.flatten.map Prod.snd = frequencies blocks from rfl, ← hc, zero_add, zero_add] at hk
    rw [← hc]
    have hk' : |(q : ℝ) + k - c| ≤ (n + 1) * (3 / 2 ^ 54) := by
      have : ((|q + k - c| : ℚ) : ℝ) ≤ ((((n + 1 : ℕ) : ℚ) * (3 / 2 ^ 54) : ℚ) : ℝ) := by exact_mod_cast hk
      push_cast at this
      exact this
    have e : Real.sin (2 * Real.pi * q) = Real.sin (2 * Real.pi * (q + k)) := by
      rw [show 2 * Real.pi * ((q : ℝ) + k) = 2 * Real.pi * q + k * (2 * Real.pi) by ring, Real.sin_add_int_mul_two_pi]
    have hs := Real.abs_sin_sub_sin_le (2 * Real.pi * ((q : ℝ) + k)) (2 * Real.pi * c)
    rw [← e, ← mul_sub, abs_mul, abs_of_pos (by positivity : (0 : ℝ) < 2 * Real.pi)] at hs
    have hb : 2 * Real.pi * |(q : ℝ) + k - c| ≤ (n + 1) * (1 / 2 ^ 49) := by
      have p1 := Real.pi_lt_d4
      have p2 := Real.pi_pos
      have hn0 : (0 : ℝ) ≤ n := Nat.cast_nonneg n
      have := mul_le_mul (by linarith : 2 * Real.pi ≤ 8) hk' (abs_nonneg _) (by norm_num)
      refine this.trans ?_
      norm_num
      nlinarith
    have hv2 : |v| < 2 ^ ((0 : ℤ) + 1) := by
      have s1 := Real.sin_le_one (2 * Real.pi * q)
      have s2 := Real.neg_one_le_sin (2 * Real.pi * q)
      have s3 := abs_le.mp sv
      have : |(v : ℝ)| < 2 := by
        rw [abs_lt]
        norm_num at s3
        constructor <;> linarith
      rw [← Rat.cast_abs] at this
      norm_num
      exact_mod_cast this
    have r := Wav.round_error (x := v) (e := 0) (by norm_num) hv2
    have r' : |((Float32.round v : ℚ) : ℝ) - v| ≤ 1 / 2 ^ 24 := by
      have : ((|Float32.round v - v| : ℚ) : ℝ) ≤ (((2 : ℚ) ^ ((0 : ℤ) - 24) : ℚ) : ℝ) := by exact_mod_cast r
      push_cast at this
      refine this.trans (le_of_eq ?_)
      norm_num
    have f1 := abs_le.mp r'
    have f2 := abs_le.mp sv
    have f3 := abs_le.mp (hs.trans hb)
    rw [abs_le]
    have : (0 : ℝ) ≤ 1 / 10 ^ 8 := by positivity
    constructor <;> linarith
  · rw [show (⟨0, table⟩ : Oscillator64) = new table from rfl, h1] at i1
    simp at i1

/-- There are tables of a sine. -/
example : ∃ table, SineTable table := by
  have : ∀ i : ℕ, ∃ q : ℚ, |(q : ℝ) - Real.sin (2 * Real.pi * (i / 8192))| ≤ 1 / 2 ^ 50 := by
    intro i
    obtain ⟨q, q1, q2⟩ := exists_rat_btwn (show Real.sin (2 * Real.pi * (i / 8192)) <
      Real.sin (2 * Real.pi * (i / 8192)) + 1 / 2 ^ 50 by linarith [show (0 : ℝ) < 1 / 2 ^ 50 by positivity])
    exact ⟨q, by rw [abs_le]; constructor <;> linarith [show (0 : ℝ) < 1 / 2 ^ 50 by positivity]⟩
  choose g hg using this
  refine ⟨(List.range 8192).map g, by simp, ?_⟩
  intro i hi
  have : ((List.range 8192).map g).getD i 0 = g i := by simp [List.getD_eq_getElem?_getD, hi]
  rw [this]
  exact hg i

end Oscillator64
end Rawdio
