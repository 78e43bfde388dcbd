import Verif.Model.FadeReal
import Verif.Lemmas.SamplerLoop
import Verif.Props.Sampler

/-!
# What a sampler plays that loops (C97)
-/

namespace Rawdio
namespace Sampler

variable {S : Type} [Semiring S]

/-- C97, the part that holds: an idle sampler that is told to start and to loop from frame `a` to frame `b` plays its
sample up to frame `b` and then the loop, again and again (`looped`), however the stream is divided into blocks, if the
loop is not shorter than the fade.  The blocks and three times the passes through the loop are at most 2^32
divided by the sample rate, less 7 (89471 at 48 kHz).  What is missing: loops that are shorter than the fade, see `C97_short_loop_violated`. -/
theorem C97_loops_partial (s : Sampler S) (hs : s.Idle) (hp : s.events.pending = []) (hv : s.voices.length = 2) (a b : Nat)
    (hab : a < b) (hlong : s.fade.values.length ≤ b - a) (n m : Nat) (hnm : n ≤ m) (x : SamplerBlock S)
    (bs : List (SamplerBlock S)) (hsent : x.sent = [.startNow n, .enableLoop m
      (Timestamp.fromSamples (a : ℚ) s.sampleRate) (Timestamp.fromSamples (b : ℚ) s.sampleRate)])
    (h0 : 0 ≤ x.start) (hn : 0 < x.out.frames) (hbs : ∀ c ∈ bs, c.sent = [] ∧ 0 < c.out.frames)
    (hlen : (bs.length + 3 * (framesOf (x :: bs) / (b - a)) + 7) * s.sampleRate ≤ 2 ^ 32) :
    ∃ f t, run f s (x :: bs) = .ok (t, addedFrom (looped s.fade s.buffer a b) 0 (x :: bs)) := by
  obtain ⟨v, w, hvw⟩ := List.length_eq_two.mp hv
  obtain ⟨f, t, h⟩ := loops_run hs hp hvw hab n m hnm x bs hsent h0 hn hbs hlen
  exact ⟨f, t, by rw [h, loopOutputs_added s.fade s.buffer hab hs.ok.fade hlong (hs.stopped w (by rw [hvw]; simp))]⟩

/-- A whole sample as a loop. -/
theorem looped_whole (fade : Fade S) (sample : Grid S) (c F : Nat) :
    looped fade sample 0 sample.frames c F = sampleFrame sample c (F % sample.frames) := by
  unfold looped
  split
  · rw [Nat.mod_eq_of_lt (by assumption)]
  · rename_i h
    have e : sampleFrame sample c (sample.frames + (F - sample.frames) % (sample.frames - 0)) = 0 := by
      rw [sampleFrame, if_neg (by omega)]
    rw [e, mul_zero, add_zero, levelIn, if_pos rfl, one_mul, Nat.zero_add, Nat.sub_zero,
      Nat.mod_eq_sub_mod (a := F) (by omega)]

/-- C97, the full claim for a loop that is the whole sample: a new sampler that is told to start and to loop plays frame
`F` modulo the length of the sample at frame `F`. -/
def Repeats (sr : Nat) (sample : Grid S) (fade : Fade S) : Prop :=
  ∀ (n m : Nat) (x : SamplerBlock S) (bs : List (SamplerBlock S)), n ≤ m →
    x.sent = [.startNow n, .enableLoop m 0 (Timestamp.fromSamples (sample.frames : ℚ) sr)] → 0 ≤ x.start →
    0 < x.out.frames → (∀ c ∈ bs, c.sent = [] ∧ 0 < c.out.frames) →
    (bs.length + 3 * (framesOf (x :: bs) / sample.frames) + 7) * sr ≤ 2 ^ 32 →
    ∃ f t, run f (new sr sample fade) (x :: bs) =
      .ok (t, addedFrom (fun c F => sampleFrame sample c (F % sample.frames)) 0 (x :: bs))

/-- C97, the part that holds for a whole sample: a sample that is not shorter than the fade is repeated without a gap and
without an overlap. What is missing: shorter samples, see `C97_short_loop_violated`. -/
theorem C97_repeats_partial (sr : Nat) (h0 : 0 < sr) (h1 : sr < 2 ^ 32) (sample : Grid S) (fade : Fade S)
    (hL : 0 < fade.values.length) (hlong : fade.values.length ≤ sample.frames) : Repeats sr sample fade := by
  intro n m x bs hnm hsent hst hn hbs hlen
  have hz : Timestamp.fromSamples ((0 : Nat) : ℚ) sr = 0 := by
    have := fromSamples_near 0 sr
    simp only [Nat.cast_zero, zero_div, zero_mul, sub_zero] at this
    have h2 : |((Timestamp.fromSamples ((0 : Nat) : ℚ) sr : Int) : ℚ)| < 1 := by
      simp only [Nat.cast_zero]; linarith
    have h3 : |Timestamp.fromSamples ((0 : Nat) : ℚ) sr| < 1 := by exact_mod_cast h2
    exact Int.abs_lt_one_iff.mp h3
  obtain ⟨f, t, h⟩ := C97_loops_partial (new sr sample fade) (new_idle sr h0 h1 sample fade hL) rfl rfl 0 sample.frames
    (by omega) (by rw [Nat.sub_zero]; exact hlong) n m hnm x bs (by
      change x.sent = [.startNow n, .enableLoop m (Timestamp.fromSamples ((0 : Nat) : ℚ) sr) _]
      rw [hz]; exact hsent) hst hn hbs
    (by rw [Nat.sub_zero]; exact hlen)
  refine ⟨f, t, ?_⟩
  rw [h]
  congr 3
  funext c F
  exact looped_whole _ _ c F

/-- C97 fails for loops that are shorter than the fade: the two voices are both still fading out when the second pass ends,
so that nothing is played in the third. -/
theorem C97_short_loop_gap (sr : Nat) (h0 : 0 < sr) (h1 : 16 * sr ≤ 2 ^ 32) (sample : Grid S) (fade : Fade S)
    (hN : 0 < sample.frames) (hshort : sample.frames < fade.values.length) (n m : Nat) (hnm : n ≤ m) (x : SamplerBlock S)
    (hsent : x.sent = [.startNow n, .enableLoop m 0 (Timestamp.fromSamples (sample.frames : ℚ) sr)]) (hst : 0 ≤ x.start)
    (hx : x.out.frames = 3 * sample.frames) :
    ∃ f t o, run f (new sr sample fade) [x] = .ok (t, [o]) ∧
      ∀ c i, 2 * sample.frames ≤ i → i < 3 * sample.frames → o.val c i = x.out.val c i := by
  have hz : Timestamp.fromSamples ((0 : Nat) : ℚ) sr = 0 := by
    have := fromSamples_near 0 sr
    simp only [Nat.cast_zero, zero_div, zero_mul, sub_zero] at this
    have h2 : |((Timestamp.fromSamples ((0 : Nat) : ℚ) sr : Int) : ℚ)| < 1 := by
      simp only [Nat.cast_zero]; linarith
    have h3 : |Timestamp.fromSamples ((0 : Nat) : ℚ) sr| < 1 := by exact_mod_cast h2
    exact Int.abs_lt_one_iff.mp h3
  have hdiv : framesOf [x] / (sample.frames - 0) = 3 := by
    simp only [framesOf, List.map_cons, List.map_nil, List.sum_cons, List.sum_nil, hx, Nat.sub_zero, Nat.add_zero]
    exact Nat.mul_div_cancel _ hN
  obtain ⟨f, t, h⟩ := loops_run (s := new sr sample fade) (new_idle sr h0 (by omega) sample fade (by omega)) rfl
    (v := Voice.default) (w := Voice.default) rfl (a := 0) (b := sample.frames) hN n m hnm x [] (by
      change x.sent = [.startNow n, .enableLoop m (Timestamp.fromSamples ((0 : Nat) : ℚ) sr) _]
      rw [hz]; exact hsent) hst (by omega) (by simp) (by rw [hdiv]; exact h1)
  refine ⟨f, t, _, h, ?_⟩
  intro c i hi1 hi2
  rw [Grid.changed_mk]
  split
  · simp only [Nat.sub_zero, Nat.zero_add]
    exact loopMix_short fade sample hN hshort rfl c i hi1 hi2 _
  · rfl

/-- C97 fails for every sample that is shorter than the fade and not silent. -/
theorem C97_short_loop_violated (sr : Nat) (h0 : 0 < sr) (h1 : 16 * sr ≤ 2 ^ 32) (sample : Grid S) (fade : Fade S)
    (hshort : sample.frames < fade.values.length) (c f : Nat) (hc : c < sample.channels) (hf : f < sample.frames)
    (hne : sample.val c f ≠ 0) : ¬ Repeats sr sample fade := by
  intro hR
  obtain ⟨x, hx⟩ : ∃ x : SamplerBlock S, x = ⟨[.startNow 0, .enableLoop 1 0
    (Timestamp.fromSamples (sample.frames : ℚ) sr)], 0, ⟨sample.channels, 3 * sample.frames, fun _ _ => 0⟩⟩ := ⟨_, rfl⟩
  obtain ⟨p, t, o, g1, g2⟩ := C97_short_loop_gap sr h0 h1 sample fade (by omega) hshort 0 1 (by omega) x (by rw [hx])
    (by rw [hx]) (by rw [hx])
  have hdiv : framesOf [x] / sample.frames = 3 := by
    simp only [framesOf, hx, List.map_cons, List.map_nil, List.sum_cons, List.sum_nil, Nat.add_zero]
    exact Nat.mul_div_cancel _ (by omega)
  obtain ⟨q, u, g3⟩ := hR 0 1 x [] (by omega) (by rw [hx]) (by rw [hx]) (by rw [hx]; simp only; omega) (by simp)
    (by rw [hdiv]; exact h1)
  have e1 := run_mono _ g1 q
  have e2 := run_mono _ g3 p
  rw [Nat.add_comm, e1] at e2
  injection e2 with e2
  injection e2 with _ e2
  simp only [addedFrom, List.cons.injEq, and_true] at e2
  have e3 := g2 c (2 * sample.frames + f) (by omega) (by omega)
  rw [e2, hx] at e3
  simp only [Nat.zero_add, zero_add] at e3
  rw [if_pos ⟨hc, by omega⟩, show 2 * sample.frames + f = f + sample.frames * 2 by ring, Nat.add_mul_mod_self_left,
    Nat.mod_eq_of_lt hf, sampleFrame, if_pos ⟨hc, hf⟩] at e3
  exact hne e3

/-! ## Examples -/

/-- The hypotheses of `C97_loops_partial`: a loop of the last three of four frames. -/
example : ∃ f t, run f (new 48000 exampleBuffer exampleFade)
    [exampleBlock [.startNow 0, .enableLoop 1 (Timestamp.fromSamples ((1 : Nat) : ℚ) 48000)
      (Timestamp.fromSamples ((4 : Nat) : ℚ) 48000)] 5, exampleBlock [] 700000] =
      .ok (t, addedFrom (looped exampleFade exampleBuffer 1 4) 0 [exampleBlock [.startNow 0, .enableLoop 1
        (Timestamp.fromSamples ((1 : Nat) : ℚ) 48000) (Timestamp.fromSamples ((4 : Nat) : ℚ) 48000)] 5,
        exampleBlock [] 700000]) :=
  C97_loops_partial (new 48000 exampleBuffer exampleFade)
    (new_idle 48000 (by decide) (by decide) exampleBuffer exampleFade (by decide)) rfl rfl 1 4 (by decide) (by decide) 0 1
    (by decide) _ _ rfl (by simp [exampleBlock]) (by simp [exampleBlock]) (by simp [exampleBlock])
    (by simp [framesOf, exampleBlock, new])

/-- What that sounds like: four frames, and then three again and again, each time fading in. -/
example : (List.range 11).map (looped exampleFade exampleBuffer 1 4 0) = [10, 20, 30, 40, 0, 30, 80, 0, 30, 80, 0] := by
  decide

/-- The hypotheses of `C97_repeats_partial`, and what is heard: the four frames again and again. -/
example : ∃ f t o, run f (new 48000 exampleBuffer exampleFade)
    [exampleBlock [.startNow 0, .enableLoop 1 0 (Timestamp.fromSamples ((4 : Nat) : ℚ) 48000)] 5] = .ok (t, [o]) ∧
    o.val 0 6 = 30 := by
  obtain ⟨f, t, h⟩ := C97_repeats_partial 48000 (by decide) (by decide) exampleBuffer exampleFade (by decide) (by decide) 0 1
    (exampleBlock [.startNow 0, .enableLoop 1 0 (Timestamp.fromSamples ((4 : Nat) : ℚ) 48000)] 5) [] (by decide) rfl
    (by simp [exampleBlock]) (by simp [exampleBlock]) (by simp) (by simp [framesOf, exampleBlock, exampleBuffer])
  exact ⟨f, t, _, h, by simp [exampleBlock, exampleBuffer, sampleFrame]⟩

/-- The hypotheses of `C97_short_loop_violated`: with the fade of the code at 48 kHz a sample of two frames has gaps. -/
example : ¬ Repeats 48000 (⟨1, 2, fun _ _ => 1⟩ : Grid ℝ) (Fade.new 48000) := by
  refine C97_short_loop_violated 48000 (by norm_num) (by norm_num) _ _ ?_ 0 0 (by norm_num) (by norm_num) (by norm_num)
  have : ⌈((48000 : Nat) : ℝ) * (50 / 1000)⌉₊ = 2400 := by
    rw [show ((48000 : Nat) : ℝ) * (50 / 1000) = ((2400 : Nat) : ℝ) by norm_num, Nat.ceil_natCast]
  simp only [Fade.new, this, Fade.curve, List.length_map, List.length_range]
  norm_num

end Sampler
end Rawdio
