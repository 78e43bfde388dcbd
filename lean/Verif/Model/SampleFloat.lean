import Verif.Lemmas.FollowerFloat

/-!
# Samples as `f32` numbers

The engine of `Model/DspGraph.lean` is modelled for every type of samples that can be added and has a zero.  Here is the
type that the program uses.  Infinities, NaN and the sign of zero are not modelled, and sums of 2^128 and more, which
would be infinite, are not either.
-/

namespace Rawdio

/-- The samples of `buffer/owned_audio_buffer.rs:10-15`, `f32`: multiples of a power of two with 24 binary digits. -/
def Sample32 : Type := {x : ℚ // Float32.Rep x}

namespace Sample32

theorem rep_neg {x : ℚ} (h : Float32.Rep x) : Float32.Rep (-x) := by
  obtain ⟨m, e, rfl, hm, he⟩ := h
  exact ⟨-m, e, by push_cast; ring, by rwa [abs_neg], he⟩

theorem rep_round (x : ℚ) : Float32.Rep (Float32.round x) := by
  rcases le_total 0 x with h | h
  · exact Float32.rep_round h
  · have := rep_neg (Float32.rep_round (x := -x) (by linarith))
    rwa [Float32.round_neg, neg_neg] at this

theorem round_of_rep {x : ℚ} (h : Float32.Rep x) : Float32.round x = x := by
  rcases le_total 0 x with h0 | h0
  · exact Float32.round_rep h0 h
  · have := Float32.round_rep (x := -x) (by linarith) (rep_neg h)
    rw [Float32.round_neg] at this
    linarith

/-- Silence, `0.0_f32`, `buffer/owned_audio_buffer.rs:19-26`. -/
instance : Zero Sample32 := ⟨⟨0, 0, 0, by simp, by norm_num, by norm_num⟩⟩

/-- `*output += *input`, `dsp/mod.rs:7-31`, as used by `add_from`, `buffer/audio_buffer.rs:156-182`: the exact sum,
rounded. -/
instance : Add Sample32 := ⟨fun a b => ⟨Float32.round (a.1 + b.1), rep_round _⟩⟩

end Sample32
end Rawdio
