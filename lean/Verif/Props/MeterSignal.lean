import Verif.Lemmas.MeterSignal

/-!
# C100: what the reports of a meter say

The reports are those of `C100_meter`.
-/

namespace Rawdio
open Processor Network

variable {S P C : Type}

/-- C100: a mono meter can take all blocks; a meter of more channels can, if their number divides the maximum number of
frames, the lengths of all process calls and the number of frames between notifications. -/
theorem C100_steady (m : MeterKind) (sr mf : Nat) (hm : 0 < mf) (ks : List (Call S P C))
    (h : m.channels = 1 ∨ m.channels ∣ mf ∧ (∀ k ∈ ks, m.channels ∣ k.output.frameCount) ∧
      ∃ n : Nat, m.interval sr = (m.channels * n : Nat)) : m.Steady sr (sessionBlocks mf ks) := by
  intro b hb
  obtain ⟨h1, _, h3⟩ := mem_blocksFrom hm hb
  rcases h with h | ⟨q1, q2, n, hn⟩
  · rw [h]
    refine ⟨h1, ?_⟩
    rintro ⟨k, k1, k2⟩
    simp only [Nat.sub_self, Nat.add_zero] at k2
    linarith
  · obtain ⟨⟨u, hu⟩, d2⟩ := h3 m.channels q1 (Nat.dvd_zero _) (by
      intro j hj
      obtain ⟨k, hk, rfl⟩ := List.mem_map.mp hj
      exact q2 k hk)
    refine ⟨Nat.le_of_dvd h1 d2, ?_⟩
    rintro ⟨k, k1, k2⟩
    rw [hn] at k1 k2
    have k1' : b.1 < k * (m.channels * n) := by exact_mod_cast k1
    have k2' : k * (m.channels * n) ≤ b.1 + (m.channels - 1) := by exact_mod_cast k2
    rw [hu] at k1' k2'
    rw [show k * (m.channels * n) = m.channels * (k * n) by ring] at k1' k2'
    have h0 : 0 < m.channels := by
      rcases Nat.eq_zero_or_pos m.channels with h | h
      · rw [h] at k1'; omega
      · exact h
    have : u < k * n := Nat.lt_of_mul_lt_mul_left k1'
    have := Nat.mul_le_mul_left m.channels (Nat.succ_le_of_lt this)
    rw [Nat.mul_succ] at this
    omega

/-- The conditions of `C100_steady`: a stereo meter at 44.1 kHz with two notifications per second. -/
example : ∃ n : Nat, (⟨2, 0, 300000000, 2⟩ : MeterKind).interval 44100 = ((2 * n : Nat) : ℚ) :=
  ⟨11025, by norm_num [MeterKind.interval]⟩

/-- C100: with an instant attack every frame that a meter looks at, and after which it reports, is in a report: the
report of its channel is at least as loud. -/
theorem C100_loud_frames (m : MeterKind) (sr mf : Nat) (hsr : 0 < sr) (ha : m.attackTime = 0) (ks : List (Call S P C))
    (x : Nat → Nat → ℝ) (c F t : Nat) (hc : c < m.channels)
    (hF : F ∈ inspectedFrames (m.interval sr) (sessionBlocks mf ks))
    (ht : t ∈ reportTimes (m.interval sr) (sessionBlocks mf ks)) (hFt : F < t) :
    ∃ r ∈ m.reports sr (sessionBlocks mf ks) x, r.channelIndex = c ∧ |x c F| ≤ r.peakLevel := by
  obtain ⟨p, p1, p2, p3⟩ := cover ht hFt (Nat.zero_le F)
  refine ⟨⟨c, m.peak sr (inspectedFrames (m.interval sr) (sessionBlocks mf ks)) (x c) p.1 p.2⟩, ?_, rfl, ?_⟩
  · rw [MeterKind.reports]
    exact List.mem_flatMap.mpr ⟨p, p1, List.mem_map.mpr ⟨c, List.mem_range.mpr hc, rfl⟩⟩
  · have hs : (inspectedFrames (m.interval sr) (sessionBlocks mf ks)).Pairwise (· < ·) := by
      refine List.Pairwise.sublist (inspected_sublist _ _) ?_
      rw [session_frames]
      exact List.pairwise_lt_range
    refine (m.le_level hsr ha hs (x c) hF).trans ((le_peakOf _ _).2 _ (List.mem_map_of_mem (List.mem_filter.mpr ⟨hF, ?_⟩)))
    simp [p2, p3]

/-- A block of eight frames with a notification due in the middle: the first four frames are looked at, and there is a
report at the end. -/
example : 3 ∈ inspectedFrames 4 [(0, 8)] ∧ 8 ∈ reportTimes 4 [(0, 8)] := by
  constructor
  · rw [inspectedFrames]
    simp only [List.flatMap_cons, List.flatMap_nil, List.append_nil, List.mem_filter, decide_eq_true_eq]
    refine ⟨by decide, ?_⟩
    rintro ⟨k, k1, k2⟩
    have h1 : 0 < k * 4 := by exact_mod_cast k1
    have h2 : k * 4 ≤ 3 := by exact_mod_cast k2
    omega
  · rw [reportTimes, List.mem_map]
    exact ⟨(0, 8), List.mem_filter.mpr ⟨by simp, by simpa using ⟨1, by norm_num, by norm_num⟩⟩, rfl⟩

/-- C100: no report is louder than the signal has been, or below 0. -/
theorem C100_no_louder (m : MeterKind) (sr mf : Nat) (hsr : 0 < sr) (ks : List (Call S P C)) (x : Nat → Nat → ℝ)
    (r : EnvelopeNotification) (hr : r ∈ m.reports sr (sessionBlocks mf ks) x) (M : ℝ) (hM : 0 ≤ M)
    (h : ∀ F < framesIn ks, |x r.channelIndex F| ≤ M) : 0 ≤ r.peakLevel ∧ r.peakLevel ≤ M ∧ r.channelIndex < m.channels := by
  obtain ⟨p, _, hr⟩ := List.mem_flatMap.mp hr
  obtain ⟨c, hc, rfl⟩ := List.mem_map.mp hr
  refine ⟨(le_peakOf _ _).1, peakOf_le _ _ hM ?_, List.mem_range.mp hc⟩
  intro v hv
  obtain ⟨G, _, rfl⟩ := List.mem_map.mp hv
  refine m.level_le hsr hM ?_
  intro H hH _
  refine h H ?_
  have := (inspected_sublist _ _).subset hH
  rw [session_frames] at this
  exact List.mem_range.mp this

/-- C100: a meter looks at every frame when notifications are only due at ends of blocks. -/
theorem C100_every_frame_partial (I : ℚ) (mf : Nat) (ks : List (Call S P C))
    (h : ∀ b ∈ sessionBlocks mf ks, ∀ k : Nat, ¬ ((b.1 : ℚ) < k * I ∧ k * I < (b.1 + b.2 : Nat))) :
    inspectedFrames I (sessionBlocks mf ks) = List.range (framesIn ks) := by
  rw [inspected_all I _ h, session_frames]

/-- C100: this is so when the maximum number of frames divides the lengths of all process calls and the number of frames
between notifications. -/
theorem C100_aligned_partial (mf n : Nat) (hm : 0 < mf) (ks : List (Call S P C)) (hk : ∀ k ∈ ks, mf ∣ k.output.frameCount) :
    inspectedFrames ((mf * n : Nat) : ℚ) (sessionBlocks mf ks) = List.range (framesIn ks) := by
  refine C100_every_frame_partial _ mf ks ?_
  rintro b hb k ⟨k1, k2⟩
  obtain ⟨h1, h2, h3⟩ := mem_blocksFrom hm hb
  obtain ⟨⟨u, hu⟩, _⟩ := h3 mf (dvd_refl _) (Nat.dvd_zero _) (by
    intro j hj
    obtain ⟨k, hk', rfl⟩ := List.mem_map.mp hj
    exact hk k hk')
  have k1' : b.1 < k * (mf * n) := by exact_mod_cast k1
  have k2' : k * (mf * n) < b.1 + b.2 := by exact_mod_cast k2
  rw [hu, show k * (mf * n) = mf * (k * n) by ring] at k1' k2'
  have : u < k * n := Nat.lt_of_mul_lt_mul_left k1'
  have := Nat.mul_le_mul_left mf (Nat.succ_le_of_lt this)
  rw [Nat.mul_succ] at this
  omega

open Classical in
/-- C100 is violated: a meter with two notifications per second at 44.1 kHz, in an engine that renders 512 frames at a
time (as in `examples/src/bin/meter.rs`), does not look at frames 22050 to 22527: no report, at any time, tells two
signals apart that differ only there, however loud they are. -/
theorem C100_every_frame_violated (m : MeterKind) (hf : m.frequency = 2) (ks : List (Call S P C))
    (hk : ∀ k ∈ ks, k.output.frameCount = 512) (x x' : Nat → Nat → ℝ)
    (hx : ∀ c F, F < 22050 ∨ 22528 ≤ F → x c F = x' c F) :
    m.reports 44100 (sessionBlocks 512 ks) x = m.reports 44100 (sessionBlocks 512 ks) x' := by
  refine m.reports_congr _ ?_
  intro c F hF
  apply hx
  by_contra hn
  obtain ⟨b, hb, hF⟩ := List.mem_flatMap.mp hF
  obtain ⟨h1, h2⟩ := List.mem_filter.mp hF
  have h1 := List.mem_range'_1.mp h1
  obtain ⟨_, b2, b3⟩ := mem_blocksFrom (by norm_num) hb
  obtain ⟨⟨u, hu⟩, _⟩ := b3 512 (dvd_refl _) (Nat.dvd_zero _) (by
    intro j hj
    obtain ⟨k, hk', rfl⟩ := List.mem_map.mp hj
    rw [hk k hk'])
  rw [decide_eq_true_eq] at h2
  refine h2 ⟨1, ?_, ?_⟩
  · rw [MeterKind.interval, hf]
    have : b.1 < 22050 := by omega
    have : (b.1 : ℚ) < 22050 := by exact_mod_cast this
    norm_num
    linarith
  · rw [MeterKind.interval, hf]
    have : 22050 ≤ F := by omega
    have : (22050 : ℚ) ≤ F := by exact_mod_cast this
    norm_num
    linarith

end Rawdio
