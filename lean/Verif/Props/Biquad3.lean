import Verif.Lemmas.BiquadRun

/-! # The filter over blocks (C74) -/

namespace Rawdio
namespace Biquad

theorem all_blocks (isZero isOne : ℝ → Bool) (hz : ∀ x, isZero x = true → x = 0) (hone : ∀ x, isOne x = true → x = 1)
    (type : FilterType) (sampleRate channels : Nat) (g : Signals) (blocks : List FilterBlock) :
    ∀ (t : Nat) (p : Processor), AtTime type sampleRate channels g t p → AllCarry channels g t blocks →
      ∃ p' os, p.processAll isZero isOne (blocks.map (fun b => (b.params, b.input, b.output, b.al))) = .ok (p', os) ∧
        Filtered type sampleRate channels g t blocks os := by
  induction blocks with
  | nil => intro t p _ _; exact ⟨p, [], rfl, trivial⟩
  | cons b bs ih =>
    intro t p hp hb
    obtain ⟨p1, o, e1, e2, e3, e4⟩ := block_ok isZero isOne hz hone type sampleRate channels g t p hp b hb.1
    obtain ⟨p2, os, e5, e6⟩ := ih _ p1 e2 hb.2
    refine ⟨p2, o :: os, ?_, ⟨e3, e4⟩, e6⟩
    rw [List.map_cons, Processor.processAll, e1]
    simp only [step_ok]
    rw [e5]
    rfl

/-- C74: for every division of the signals into blocks, with the parameters moving at every frame as they like, the
processor does not panic and its output is the filtered input times the gain: the difference equation over the whole
history with, at each frame, the coefficients of the settings of that frame. -/
theorem C74_blocks (isZero isOne : ℝ → Bool) (hz : ∀ x, isZero x = true → x = 0) (hone : ∀ x, isOne x = true → x = 1)
    (type : FilterType) (sampleRate channels : Nat) (g : Signals) (blocks : List FilterBlock)
    (h : AllCarry channels g 0 blocks) :
    ∃ p os, (Processor.new sampleRate channels type).processAll isZero isOne
        (blocks.map (fun b => (b.params, b.input, b.output, b.al))) = .ok (p, os) ∧
      Filtered type sampleRate channels g 0 blocks os :=
  all_blocks isZero isOne hz hone type sampleRate channels g blocks 0 _ (new_at_zero type sampleRate channels g) h

/-- The signals of the example: one channel with a ramp, the cutoff moving with every frame. -/
noncomputable def exampleSignals : Signals := ⟨fun _ t => t, fun t => ⟨1000 + t, 1, 1⟩, fun _ => 1 / 2⟩

/-- Two blocks of two frames and one frame. -/
noncomputable def exampleBlocks : List FilterBlock :=
  [⟨⟨[1000, 1001], [1, 1], [1, 1], [1 / 2, 1 / 2]⟩, .owned [0, 1] 1 2 48000, .owned [0, 0] 1 2 48000, fun _ => (0, 0)⟩,
   ⟨⟨[1002], [1], [1], [1 / 2]⟩, .owned [2] 1 1 48000, .owned [0] 1 1 48000, fun _ => (0, 0)⟩]

example : AllCarry 1 exampleSignals 0 exampleBlocks := by
  refine ⟨⟨rfl, rfl, trivial, rfl, rfl, rfl, rfl, ?_⟩, ⟨rfl, rfl, trivial, rfl, rfl, rfl, rfl, ?_⟩, trivial⟩
  · intro f hf
    have : f = 0 ∨ f = 1 := by simp [Buf.frameCount] at hf; omega
    rcases this with rfl | rfl
    · exact ⟨fun c hc => by obtain rfl : c = 0 := by omega
                            simp [Buf.sample?, exampleSignals], by simp [exampleSignals], rfl, rfl, rfl⟩
    · exact ⟨fun c hc => by obtain rfl : c = 0 := by omega
                            simp [Buf.sample?, exampleSignals], by simp [exampleSignals]; norm_num, rfl, rfl, rfl⟩
  · intro f hf
    have : f = 0 := by simp [Buf.frameCount] at hf; omega
    subst this
    exact ⟨fun c hc => by obtain rfl : c = 0 := by omega
                          simp [Buf.sample?, exampleSignals, Buf.frameCount], by simp [exampleSignals, Buf.frameCount]; norm_num, rfl, rfl, rfl⟩

end Biquad
end Rawdio
