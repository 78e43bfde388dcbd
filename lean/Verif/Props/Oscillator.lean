import Mathlib.Analysis.Real.Pi.Bounds
import Verif.Lemmas.Oscillator

/-! # The oscillator (C46, C75, C76) -/

namespace Rawdio
namespace Oscillator

theorem start (frequency : ℕ → ℝ) (sampleRate : ℕ) (table : List ℝ) :
    AtCycle (cycles frequency sampleRate 0) (new table) := ⟨le_rfl, zero_le_one, 0, by simp [new, cycles]⟩

/-- C46, violated: whatever the table and the division into blocks, when a whole number of cycles is complete at a
frame, the processor reads past the end of the table and panics. -/
theorem C46_whole_cycles_violated (isZero isOne : ℝ → Bool) (hz : ∀ x, isZero x = true → x = 0)
    (hone : ∀ x, isOne x = true → x = 1) (fuel sampleRate : Nat) (frequency gain : ℕ → ℝ) (table : List ℝ)
    (ht : 0 < table.length) (hf : ∀ t, 0 < frequency t / sampleRate) (hfuel : ∀ t, frequency t / sampleRate + 1 < fuel)
    (blocks : List OscBlock) (hb : AllCarry sampleRate frequency gain 0 blocks)
    (h : ∃ t < frames blocks, Whole (cycles frequency sampleRate (t + 1))) :
    (new table).processAll isZero isOne fuel (blocks.map (fun b => (b.frequency, b.gain, b.output, b.al))) =
      .error .panic :=
  (blocks_cases isZero isOne hz hone fuel sampleRate frequency gain hf hfuel blocks 0 (new table)
    (start frequency sampleRate table) ht hb).1 (by simpa using h)

/-- The block of the witness: 128 frames at 375 Hz and 48 kHz. -/
noncomputable def block375 : OscBlock :=
  ⟨List.replicate 128 375, List.replicate 128 1, Buf.new 128 1 48000, fun _ => (0, 0)⟩

theorem block375_carries : AllCarry 48000 (fun _ => 375) (fun _ => 1) 0 [block375] := by
  refine ⟨⟨by simp [block375, Buf.new, Buf.WF], trivial, by simp [block375, Buf.new, Buf.channelCount], rfl,
    by simp [block375, Buf.new, Buf.frameCount], by simp [block375, Buf.new, Buf.frameCount], fun f hf => ?_⟩, trivial⟩
  have : f < 128 := by simpa [block375, Buf.new, Buf.frameCount] using hf
  have h1 : ∀ x : ℝ, (List.replicate 128 x)[f]? = some x := fun x => by
    rw [List.getElem?_replicate, if_pos this]
  exact ⟨h1 375, h1 1⟩

/-- C46, violated: the sine oscillator at 375 Hz, a frequency in range, panics within 128 frames at 48 kHz.  The phase
is exact in `f64`: 375 / 48000 is 1 / 128. -/
theorem C46_375_hertz_violated (isZero isOne : ℝ → Bool) (hz : ∀ x, isZero x = true → x = 0)
    (hone : ∀ x, isOne x = true → x = 1) : InRange 375 ∧
    sine.processAll isZero isOne 3 [(List.replicate 128 375, List.replicate 128 1, Buf.new 128 1 48000, fun _ => (0, 0))] =
      .error .panic := by
  refine ⟨⟨by norm_num, by norm_num⟩, ?_⟩
  refine C46_whole_cycles_violated isZero isOne hz hone 3 48000 (fun _ => 375) (fun _ => 1) _
    (by rw [makeSine_length]; decide) (fun t => by norm_num) (fun t => by norm_num) [block375] block375_carries
    ⟨127, by simp [frames, block375, Buf.new, Buf.frameCount], 1, ?_⟩
  simp only [cycles, Finset.sum_const, Finset.card_range, nsmul_eq_mul]
  norm_num

/-- C46, partial: as long as no whole number of cycles falls on a frame, nothing is read outside the table, and every
channel carries the same signal.  Missing: whole numbers of cycles (see `C46_whole_cycles_violated`). -/
theorem C46_reads_partial (isZero isOne : ℝ → Bool) (hz : ∀ x, isZero x = true → x = 0)
    (hone : ∀ x, isOne x = true → x = 1) (fuel sampleRate : Nat) (frequency gain : ℕ → ℝ) (table : List ℝ)
    (ht : 0 < table.length) (hf : ∀ t, 0 < frequency t / sampleRate) (hfuel : ∀ t, frequency t / sampleRate + 1 < fuel)
    (blocks : List OscBlock) (hb : AllCarry sampleRate frequency gain 0 blocks)
    (h : ∀ t < frames blocks, ¬ Whole (cycles frequency sampleRate (t + 1))) :
    ∃ o outs, (new table).processAll isZero isOne fuel (blocks.map (fun b => (b.frequency, b.gain, b.output, b.al))) =
      .ok (o, outs) ∧ Plays (fun _ _ => True) 0 blocks outs := by
  obtain ⟨o, outs, h1, h2⟩ := (blocks_cases isZero isOne hz hone fuel sampleRate frequency gain hf hfuel blocks 0 (new table)
    (start frequency sampleRate table) ht hb).2 (by simpa using h)
  exact ⟨o, outs, h1, plays_mono (fun _ _ _ => trivial) _ _ _ h2⟩

/-- C75, partial: for a table that starts with 0, each frame is the periodic table, read along straight lines at the
cycles gone by, times the gain, however the frequency moves and the blocks are cut.  Missing: tables that start with
something else (see `C75_last_segment_violated`), and whole numbers of cycles. -/
theorem C75_plays_table_partial (isZero isOne : ℝ → Bool) (hz : ∀ x, isZero x = true → x = 0)
    (hone : ∀ x, isOne x = true → x = 1) (fuel sampleRate : Nat) (frequency gain : ℕ → ℝ) (table : List ℝ)
    (ht : 0 < table.length) (h0 : table.getD 0 0 = 0) (hf : ∀ t, 0 < frequency t / sampleRate)
    (hfuel : ∀ t, frequency t / sampleRate + 1 < fuel)
    (blocks : List OscBlock) (hb : AllCarry sampleRate frequency gain 0 blocks)
    (h : ∀ t < frames blocks, ¬ Whole (cycles frequency sampleRate (t + 1))) :
    ∃ o outs, (new table).processAll isZero isOne fuel (blocks.map (fun b => (b.frequency, b.gain, b.output, b.al))) =
      .ok (o, outs) ∧
      Plays (fun t v => v = tableAt table (cycles frequency sampleRate (t + 1)) * gain t) 0 blocks outs := by
  obtain ⟨o, outs, h1, h2⟩ := (blocks_cases isZero isOne hz hone fuel sampleRate frequency gain hf hfuel blocks 0 (new table)
    (start frequency sampleRate table) ht hb).2 (by simpa using h)
  refine ⟨o, outs, h1, plays_mono (fun t v hv => ?_) _ _ _ h2⟩
  rw [hv, ← rawAt_eq table _ ht h0]
  rfl

/-- The block of the examples: one frame on two channels, at 20 kHz and 24 kHz. -/
noncomputable def block20k : OscBlock := ⟨[20000], [1], .owned [7, 8] 2 1 24000, fun _ => (0, 0)⟩

theorem block20k_carries : AllCarry 24000 (fun _ => 20000) (fun _ => 1) 0 [block20k] := by
  refine ⟨⟨rfl, trivial, by simp [block20k, Buf.channelCount], rfl, rfl, rfl, fun f hf => ?_⟩, trivial⟩
  obtain rfl : f = 0 := by simp [block20k, Buf.frameCount] at hf; omega
  simp [block20k]

theorem cycles_20k : cycles (fun _ => 20000) 24000 1 = 5 / 6 := by
  simp only [cycles, Finset.sum_const, Finset.card_range, nsmul_eq_mul]
  norm_num

theorem not_whole_20k : ¬ Whole (cycles (fun _ => 20000) 24000 1) := by
  rw [cycles_20k]
  rintro ⟨n, hn⟩
  rcases Nat.eq_zero_or_pos n with rfl | h
  · norm_num at hn
  · have : (1 : ℝ) ≤ n := by exact_mod_cast h
    linarith

/-- C75, violated: after the last sample of the table comes 0 and not the first sample.  The table of three ones, one
frame at 20 kHz and 24 kHz: the periodic table is 1 everywhere, the output is 1 / 2. -/
theorem C75_last_segment_violated (isZero isOne : ℝ → Bool) (hz : ∀ x, isZero x = true → x = 0)
    (hone : ∀ x, isOne x = true → x = 1) : InRange 20000 ∧ tableAt [1, 1, 1] (cycles (fun _ => 20000) 24000 1) = 1 ∧
    ∃ o out, (new [1, 1, 1]).processAll isZero isOne 2 [([20000], [1], .owned [7, 8] 2 1 24000, fun _ => (0, 0))] =
      .ok (o, [out]) ∧ out.sample? 0 0 = some (1 / 2) := by
  refine ⟨⟨by norm_num, by norm_num⟩, ?_, ?_⟩
  · have hfl : ⌊(5 / 6 : ℝ) * 3⌋₊ = 2 := by rw [Nat.floor_eq_iff (by norm_num)]; norm_num
    have hfr : Int.fract (5 / 6 : ℝ) = 5 / 6 := Int.fract_eq_self.mpr ⟨by norm_num, by norm_num⟩
    rw [cycles_20k]
    unfold tableAt
    simp only [hfr, List.length_cons, List.length_nil]
    have hfl2 : ⌊(5 / 2 : ℝ)⌋₊ = 2 := by rw [Nat.floor_eq_iff (by norm_num)]; norm_num
    norm_num [hfl, hfl2]
  · obtain ⟨o, outs, h1, h2⟩ := (blocks_cases isZero isOne hz hone 2 24000 (fun _ => 20000) (fun _ => 1)
      (fun t => by norm_num) (fun t => by norm_num) [block20k] 0 (new [1, 1, 1]) (start _ _ _)
      (by simp [new]) block20k_carries).2 (by
        intro f hf
        obtain rfl : f = 0 := by simp [frames, block20k, Buf.frameCount] at hf; omega
        exact not_whole_20k)
    match outs, h2 with
    | [out], h2 =>
      refine ⟨o, out, h1, ?_⟩
      obtain ⟨v, hv, hs⟩ := h2.1.2 0 (by simp [block20k, Buf.frameCount])
      rw [hs 0 (by simp [block20k, Buf.channelCount]), hv]
      have hfl : ⌊(5 / 6 : ℝ) * 3⌋₊ = 2 := by rw [Nat.floor_eq_iff (by norm_num)]; norm_num
      have hfr : Int.fract (5 / 6 : ℝ) = 5 / 6 := Int.fract_eq_self.mpr ⟨by norm_num, by norm_num⟩
      have hfr2 : Int.fract (5 / 2 : ℝ) = 1 / 2 := by
        rw [Int.fract, show ⌊(5 / 2 : ℝ)⌋ = 2 by rw [Int.floor_eq_iff]; norm_num]
        norm_num
      have hfl2 : ⌊(5 / 2 : ℝ)⌋₊ = 2 := by rw [Nat.floor_eq_iff (by norm_num)]; norm_num
      rw [Nat.zero_add, cycles_20k]
      unfold rawAt
      simp only [hfr, new, List.length_cons, List.length_nil]
      norm_num [hfl, hfr2, hfl2]

example : 0 < [(0 : ℝ), 1, -1].length ∧ [(0 : ℝ), 1, -1].getD 0 0 = 0 ∧ (∀ t : ℕ, (0 : ℝ) < (fun _ => 20000) t / (24000 : ℕ)) ∧
    (∀ t : ℕ, (fun _ => (20000 : ℝ)) t / (24000 : ℕ) + 1 < (2 : ℕ)) ∧
    AllCarry 24000 (fun _ => 20000) (fun _ => 1) 0 [block20k] ∧
    ∀ t < frames [block20k], ¬ Whole (cycles (fun _ => 20000) 24000 (t + 1)) := by
  refine ⟨by simp, rfl, fun t => by norm_num, fun t => by norm_num, block20k_carries, fun f hf => ?_⟩
  obtain rfl : f = 0 := by simp [frames, block20k, Buf.frameCount] at hf; omega
  exact not_whole_20k

/-- C76, partial: the oscillator with harmonics plays the sum of its harmonics at the cycles gone by, times the gain,
up to the error of the straight lines: an eighth of the square of the step, for each harmonic at its level.  Missing:
whole numbers of cycles. -/
theorem C76_harmonics_partial (isZero isOne : ℝ → Bool) (hz : ∀ x, isZero x = true → x = 0)
    (hone : ∀ x, isOne x = true → x = 1) (fuel sampleRate : Nat) (frequency gain : ℕ → ℝ) (levels : List Level)
    (hf : ∀ t, 0 < frequency t / sampleRate) (hfuel : ∀ t, frequency t / sampleRate + 1 < fuel)
    (blocks : List OscBlock) (hb : AllCarry sampleRate frequency gain 0 blocks)
    (h : ∀ t < frames blocks, ¬ Whole (cycles frequency sampleRate (t + 1))) :
    ∃ o outs, (withHarmonics levels).processAll isZero isOne fuel
        (blocks.map (fun b => (b.frequency, b.gain, b.output, b.al))) = .ok (o, outs) ∧
      Plays (fun t v => |v - harmonicSum levels (cycles frequency sampleRate (t + 1)) * gain t| ≤
        (∑ k ∈ Finset.range levels.length, |(levels.getD k ⟨0⟩).linear| * ((2 * Real.pi * (k + 1) / 8192) ^ 2 / 8)) *
          |gain t|) 0 blocks outs := by
  obtain ⟨h1, h2⟩ := addHarmonics_get levels 0 (List.replicate tableSize 0) (by simp)
  set table := addHarmonics 0 levels (List.replicate tableSize 0) with htable
  have ht : 0 < table.length := by rw [h1]; decide
  have h3 : ∀ i < table.length, table.getD i 0 = hsum 0 levels ((i : ℝ) / table.length) := by
    intro i hi
    rw [h1] at hi ⊢
    rw [h2 i hi, List.getD_eq_getElem?_getD, List.getElem?_replicate, if_pos hi, Option.getD_some, zero_add]
  obtain ⟨o, outs, e1, e2⟩ := C75_plays_table_partial isZero isOne hz hone fuel sampleRate frequency gain table ht
    (by rw [h3 0 ht]; simp [hsum_zero]) hf hfuel blocks hb h
  refine ⟨o, outs, e1, plays_mono (fun t v hv => ?_) _ _ _ e2⟩
  have h4 := tableAt_near table levels ht h3 (cycles frequency sampleRate (t + 1))
  rw [hsum_eq, herr_eq, h1] at h4
  simp only [Nat.zero_add] at h4
  rw [hv, ← sub_mul, abs_mul]
  exact mul_le_mul_of_nonneg_right h4 (abs_nonneg _)

/-- Nothing but the length of a table matters to what follows. -/
theorem sine_table (n : ℕ) : makeSine n 1 = Kernels.zipInto (fun h w => w + h * Level.unity.linear) (makeSine n 1)
    (List.replicate n 0) := by
  apply List.ext_getElem?
  intro i
  by_cases hi : i < n
  · rw [Kernels.zipInto_get _ _ _ (by rw [makeSine_length, List.length_replicate]) i (by rwa [List.length_replicate]),
      List.getElem?_eq_getElem (by rwa [makeSine_length])]
    simp [Level.unity, Level.fromLinear]
  · rw [List.getElem?_eq_none (by rw [makeSine_length]; omega),
      List.getElem?_eq_none (by rw [Kernels.length_zipInto, List.length_replicate]; omega)]

theorem sine_eq : sine = withHarmonics [Level.unity] := by
  unfold sine withHarmonics
  rw [addHarmonics, addHarmonics]
  generalize tableSize = n
  rw [Nat.zero_add, ← sine_table]

/-- C76, partial: the sine oscillator plays a sine of the cycles gone by, times the gain, to within one part in ten
million.  Missing: whole numbers of cycles. -/
theorem C76_sine_partial (isZero isOne : ℝ → Bool) (hz : ∀ x, isZero x = true → x = 0)
    (hone : ∀ x, isOne x = true → x = 1) (fuel sampleRate : Nat) (frequency gain : ℕ → ℝ)
    (hf : ∀ t, 0 < frequency t / sampleRate) (hfuel : ∀ t, frequency t / sampleRate + 1 < fuel)
    (blocks : List OscBlock) (hb : AllCarry sampleRate frequency gain 0 blocks)
    (h : ∀ t < frames blocks, ¬ Whole (cycles frequency sampleRate (t + 1))) :
    ∃ o outs, sine.processAll isZero isOne fuel (blocks.map (fun b => (b.frequency, b.gain, b.output, b.al))) =
        .ok (o, outs) ∧
      Plays (fun t v => |v - Real.sin (2 * Real.pi * cycles frequency sampleRate (t + 1)) * gain t| ≤
        1 / 10 ^ 7 * |gain t|) 0 blocks outs := by
  rw [sine_eq]
  obtain ⟨o, outs, e1, e2⟩ := C76_harmonics_partial isZero isOne hz hone fuel sampleRate frequency gain [Level.unity] hf hfuel
    blocks hb h
  refine ⟨o, outs, e1, plays_mono (fun t v hv => ?_) _ _ _ e2⟩
  simp [harmonicSum, Level.unity, Level.fromLinear] at hv
  refine hv.trans (mul_le_mul_of_nonneg_right ?_ (abs_nonneg _))
  have h1 := Real.pi_lt_d4
  have h2 := Real.pi_pos
  have h3 : Real.pi ^ 2 < 3.1416 ^ 2 := by nlinarith
  rw [div_pow, mul_pow]
  norm_num at h3 ⊢
  linarith

end Oscillator
end Rawdio
