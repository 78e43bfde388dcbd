import Mathlib.Tactic.IntervalCases
import Verif.Lemmas.Convolution

/-! # The convolution node (C45) -/

namespace Rawdio
namespace Convolver

open Biquad

theorem blocks_ok (channels : ℕ) (h : ℕ → ℕ → ℝ) (k : ℕ) (g : Signals) (maximum : ℕ) (blocks : List ConvBlock) :
    ∀ (t : ℕ) (c : Convolver), AllCarry channels g t blocks → AtTime channels h k g.x maximum t c →
    ∃ c' outs, c.processAll (blocks.map (fun b => (b.input, b.output, b.wet, b.dry, b.al))) = .ok (c', outs) ∧
      Convolved channels h k g t blocks outs := by
  induction blocks with
  | nil => exact fun t c _ _ => ⟨c, [], rfl, trivial⟩
  | cons b bs ih =>
    intro t c hb hc
    obtain ⟨c1, o, e1, e2, e3, e4⟩ := process_ok channels h k g maximum t b hb.1 c hc
    obtain ⟨c2, outs, u1, u2⟩ := ih _ c1 hb.2 e2
    refine ⟨c2, o :: outs, ?_, ⟨e3, e4⟩, u2⟩
    simp only [List.map_cons, processAll, e1, step_ok, u1]
    rfl

/-- C45, partial: for every impulse response, however the input is cut into blocks, and whatever the wet and dry levels
do, every frame of the output is what was there before, plus the dry input, plus the wet direct convolution of the whole
past of the input.  Missing: numbers of channels that differ (see `C45_more_inputs_violated` and
`C45_fewer_inputs_violated`), and an impulse response without frames (see `C45_empty_violated`). -/
theorem C45_direct_sum_partial (impulse : Buf ℝ) (hw : impulse.WF) (maximum : ℕ) (hmax : 0 < maximum)
    (hk : 0 < impulse.frameCount ∨ maximum ≤ nextPowerOfTwo (maximum - 1)) (h : ℕ → ℕ → ℝ)
    (hi : ∀ c < impulse.channelCount, ∀ f < impulse.frameCount, impulse.sample? c f = some (h c f)) (g : Signals)
    (blocks : List ConvBlock) (hb : AllCarry impulse.channelCount g 0 blocks) :
    ∃ c c' outs, new impulse maximum = .ok c ∧
      c.processAll (blocks.map (fun b => (b.input, b.output, b.wet, b.dry, b.al))) = .ok (c', outs) ∧
      Convolved impulse.channelCount h impulse.frameCount g 0 blocks outs := by
  obtain ⟨c, e1, e2⟩ := new_ok impulse hw maximum hmax hk h g.x hi
  obtain ⟨c', outs, u1, u2⟩ := blocks_ok _ _ _ _ _ blocks 0 c hb e2
  exact ⟨c, c', outs, e1, u1, u2⟩

/-- Three frames on two channels, more than the maximum of two in the example. -/
noncomputable def exampleBlock : ConvBlock :=
  ⟨.owned [1, 2, 3, 4, 5, 6] 2 3 48000, Buf.new 3 2 48000, [1, 1, 1], [0, 0, 0], fun _ _ => (0, 0, 0)⟩

/-- The signals of the example. -/
noncomputable def exampleSignals : Signals := ⟨fun c t => 3 * c + t + 1, fun _ => 1, fun _ => 0⟩

example : (Buf.owned [(1 : ℝ), 2, 3, 4] 2 2 48000).WF ∧ AllCarry 2 exampleSignals 0 [exampleBlock] ∧
    convolved (fun i => i + 1) 2 (exampleSignals.x 1) 2 = 16 := by
  refine ⟨by simp [Buf.WF], ⟨⟨by simp [exampleBlock, Buf.WF], by simp [exampleBlock, Buf.new, Buf.WF], trivial, rfl, rfl,
    rfl, rfl, rfl, ?_⟩, trivial⟩, ?_⟩
  · intro f hf
    have : f < 3 := hf
    refine ⟨fun c hc => ?_, ?_, ?_⟩
    · interval_cases f <;> interval_cases c <;>
        simp [exampleBlock, exampleSignals, Buf.sample?] <;> norm_num
    · interval_cases f <;> simp [exampleBlock, exampleSignals]
    · interval_cases f <;> simp [exampleBlock, exampleSignals]
  · simp [convolved, Finset.sum_range_succ, exampleSignals]
    norm_num

example : (512 : ℕ) ≤ nextPowerOfTwo (512 - 1) := by
  refine Nat.le_trans ?_ (Nat.pow_le_pow_right (by norm_num) (show 9 ≤ Nat.clog 2 (512 - 1) from ?_))
  · norm_num
  · exact (Nat.lt_clog_iff_pow_lt (by norm_num)).mpr (by norm_num)

/-- C45, violated: `Convolution::new` takes any number of inputs, but with more inputs than the impulse response has
channels, the first frame that arrives makes the processor panic. -/
theorem C45_more_inputs_violated (impulse : Buf ℝ) (hw : impulse.WF) (hk : 0 < impulse.frameCount) (maximum : ℕ)
    (hmax : 0 < maximum) (al : Nat → Nat → Nat × Nat × Nat) (input output : Buf ℝ) (hi : input.WF)
    (hc : impulse.channelCount < input.channelCount) (hf : 0 < input.frameCount)
    (ho : input.frameCount ≤ output.frameCount) (wet dry : List ℝ) (hwet : wet.length = input.frameCount)
    (hdry : dry.length = input.frameCount) :
    ∃ c, new impulse maximum = .ok c ∧ c.process al input output wet dry = .error .panic := by
  obtain ⟨c, e1, e2⟩ := new_ok impulse hw maximum hmax (.inl hk) (fun c f => (impulse.sample? c f).getD 0)
    (fun c f => (input.sample? c f).getD 0) (fun c hc f hf => by
      obtain ⟨v, hv⟩ := Buf.sample?_isSome impulse hw c f hc hf
      simp [hv])
  refine ⟨c, e1, ?_⟩
  obtain ⟨a1, a2, a3, a4, a5, a6⟩ := e2
  obtain ⟨m, hm⟩ : ∃ m, m = min maximum input.frameCount := ⟨_, rfl⟩
  have hiw := Processor.slice_wf hi 0 m false (by omega)
  have hcons : c.consumeInput (Buf.slice input ⟨0, 0, input.channelCount, m⟩ false) = .error .panic := by
    have h1 := consume_first (fun c f => (input.sample? c f).getD 0) c.length 0 impulse.channelCount
      (Buf.slice input ⟨0, 0, input.channelCount, m⟩ false) hiw hc.le (by show m ≤ _; omega) (by
        intro ch hch f hf
        rw [Processor.slice_sample 0 m false ch f hf, Nat.zero_add]
        obtain ⟨v, hv⟩ := Buf.sample?_isSome input hi ch f (by omega) (by
          have : f < m := hf
          omega)
        simp [hv]) c a6
    obtain ⟨d, hd⟩ : ∃ d, input.channelCount = impulse.channelCount + (d + 1) := ⟨input.channelCount - impulse.channelCount - 1, by omega⟩
    unfold consumeInput
    show ((List.range input.channelCount).foldlM _ _ >>= _) = _
    rw [hd] at h1 ⊢
    rw [List.range_add, List.foldlM_append, h1]
    simp only [step_ok, List.range_succ_eq_map, List.map_cons, List.foldlM_cons]
    have : consumeChannel (Buf.slice input ⟨0, 0, impulse.channelCount + (d + 1), m⟩ false)
        ((List.range impulse.channelCount).map (fun ch => past (fun f => (input.sample? ch f).getD 0) c.length
          (0 + (Buf.slice input ⟨0, 0, impulse.channelCount + (d + 1), m⟩ false).frameCount))) (impulse.channelCount + 0) =
        .error .panic := by
      unfold consumeChannel Buf.index
      rw [List.getElem?_eq_none (by simp)]
      rfl
    rw [this]
    rfl
  obtain ⟨r, hr⟩ : ∃ r, (input.frameCount + maximum - 1) / maximum = r + 1 := by
    have : 0 < (input.frameCount + maximum - 1) / maximum := Nat.div_pos (by omega) hmax
    exact ⟨(input.frameCount + maximum - 1) / maximum - 1, by omega⟩
  unfold process
  rw [if_neg (by omega), a4, hr, List.range_succ_eq_map, List.foldlM_cons]
  have hround : round (al 0) input wet dry (c, output) (0 * maximum) = .error .panic := by
    unfold round
    simp only [a4, Nat.zero_mul, Nat.sub_zero]
    rw [← hm, sliceRange_ok (by omega) (by omega), sliceRange_ok (by omega) (by omega),
      Processor.sliceFrames_ok input 0 m false (by omega), Processor.sliceFrames_ok output 0 m true (by omega)]
    simp only [step_ok, hcons]
    rfl
  rw [hround]
  rfl

example : (Buf.owned [(1 : ℝ)] 1 1 48000).WF ∧ (Buf.owned [(1 : ℝ)] 1 1 48000).channelCount <
    (Buf.owned [(1 : ℝ), 2] 2 1 48000).channelCount := by
  refine ⟨by simp [Buf.WF], by decide⟩

theorem fft_one (a : ℂ) : fft 1 [a] = [a] := by simp [fft]

theorem ifft_one (a : ℂ) : ifft 1 [a] = [a] := by simp [ifft]

/-- C45, violated: a mono input, with an impulse response in stereo.  The input is the first channel of a buffer of two,
as the engine cuts it from its pool; the second channel holds 7, left there by some other node.  The impulse response is
1 on both channels, the input 3, and both levels are 1: the first channel comes out as 3 + 3, the second as 7 with no
trace of the convolution. -/
theorem C45_fewer_inputs_violated (al : Nat → Nat → Nat × Nat × Nat) :
    ∃ c c' o, new (.owned [1, 1] 2 1 48000) 1 = .ok c ∧
      c.process al (.slice (.owned [3, 7] 2 1 48000) ⟨0, 0, 1, 1⟩ false) (.owned [0, 0] 2 1 48000) [1] [1] = .ok (c', o) ∧
      o.sample? 0 0 = some 6 ∧ o.sample? 1 0 = some 7 := by
  refine ⟨⟨1, [[1], [1]], [[0], [0]], 1⟩, ⟨1, [[1], [1]], [[3], [0]], 1⟩, .owned [6, 7] 2 1 48000, ?_, ?_, rfl, rfl⟩
  · have h : ∀ c < 2, impulseChannel (.owned [1, 1] 2 1 48000) 1 c = .ok [1] := by
      intro c hc
      interval_cases c <;>
        simp [impulseChannel, Buf.channelData, Loc.ofChannel, sliceRange, fft_one] <;> rfl
    unfold new
    rw [if_neg (by simp [Buf.frameCount])]
    have e : nextPowerOfTwo 1 = 1 := by simp [nextPowerOfTwo]
    simp only [Buf.frameCount, Buf.channelCount, Nat.add_sub_cancel, e]
    rw [mapM_range_ok 2 _ (fun _ => [1]) h]
    rfl
  · have hk : ∀ (a b c : ℕ) (x y z : ℝ), Kernels.mixIntoWithGains a b c [x] [y] [z] = [y + x * z] := by
      intro a b c x y z
      exact Kernels.kernel3_eq _ _ _ _ [x] [y] [z] rfl rfl
    simp [process, round, Buf.frameCount, Buf.channelCount, sliceRange, Buf.sliceFrames, Buf.mkSlice, Buf.rangeIsValid,
      consumeInput, consumeChannel, Buf.index, Buf.copyWithinList, Buf.channelData, Loc.ofChannel, modifyRange,
      Kernels.zipInto, Buf.assign, List.range_succ, copyDry, Buf.modifyChannel, hk, copyProcessed, addProcessed,
      transformed, fft_one, ifft_one, Kernels.zipInto3, step_ok, Loc.offsetFrames, Loc.offsetChannels, Buf.parent]
    norm_num

/-- C45, violated: an impulse response without frames, which should give silence, makes the processor panic when the
maximum is two. -/
theorem C45_empty_violated (al : Nat → Nat → Nat × Nat × Nat) :
    ∃ c, new (.owned [] 1 0 48000) 2 = .ok c ∧
      c.process al (.owned [1, 1] 1 2 48000) (.owned [0, 0] 1 2 48000) [1, 1] [0, 0] = .error .panic := by
  refine ⟨⟨1, [fft 1 [0]], [[0]], 2⟩, ?_, ?_⟩
  · have e : nextPowerOfTwo 1 = 1 := by simp [nextPowerOfTwo]
    simp [new, Buf.frameCount, Buf.channelCount, e, List.range_succ, impulseChannel, Buf.channelData, Loc.ofChannel, sliceRange]
  · simp [process, round, Buf.frameCount, Buf.channelCount, sliceRange, Buf.sliceFrames, Buf.mkSlice, Buf.rangeIsValid,
      consumeInput, consumeChannel, Buf.index, Buf.copyWithinList, List.range_succ, step_ok]
    rfl

end Convolver
end Rawdio
