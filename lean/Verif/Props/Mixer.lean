import Mathlib.Tactic.Ring
import Verif.Lemmas.Mixer

/-! # Properties of the mixer (C37, C38) -/

namespace Rawdio

open Buf

/-- Inputs for the examples: two channels of two frames. -/
noncomputable def mixIn : Buf ℝ := owned [1, 2, 3, 4] 2 2 48000

/-- An output for the examples: two channels of two frames. -/
noncomputable def mixOut : Buf ℝ := owned [0, 0, 0, 0] 2 2 48000

theorem mix_block_ok : (MixerAction.block (fun _ _ _ => (0, 0)) mixIn mixOut).Ok 2 2 :=
  ⟨rfl, rfl, trivial, rfl⟩

/-- The gain used differs from the level set by rounding only. -/
theorem C37_effective_gain (x : ℝ) : |effectiveGain x - x| ≤ max |x| 1 * epsilon := by
  have he : (0 : ℝ) < epsilon := by unfold epsilon; positivity
  unfold effectiveGain
  split
  · rename_i h
    rw [zero_sub, abs_neg]
    have := le_max_right |x| (1 : ℝ)
    nlinarith
  · split
    · rename_i h
      rw [abs_sub_comm]
      exact h
    · rw [sub_self, abs_zero]
      have := le_max_right |x| (1 : ℝ)
      positivity

example : effectiveGain (1 / 2) = 1 / 2 := by
  unfold effectiveGain
  rw [if_neg (by unfold epsilon; norm_num), if_neg]
  have : max |(1 / 2 : ℝ)| 1 = 1 := max_eq_right (by norm_num)
  rw [this]
  unfold epsilon
  norm_num

/-- C37: in every history of level changes and blocks, every output sample is what was there plus the sum of
the inputs times the levels last set before the block; levels never set are 0. -/
theorem C37_matrix (inputs outputs : Nat) (hi : inputs ≤ 8) (ho : outputs ≤ 8) (as : List MixerAction)
    (hok : ∀ a ∈ as, a.Ok inputs outputs) (m m' : Mixer) (results : List (Buf ℝ))
    (hm : Mixer.new inputs outputs = .ok m) (hrun : m.run as = .ok (m', results)) :
    MixedBlocks (fun _ _ => 0) as results := by
  obtain ⟨m0, e1, e2, e3⟩ := Mixer.Agrees.new hi ho
  rw [hm] at e1
  cases e1
  by_cases h32 : AtMost32 m.channel.length as
  · obtain ⟨m2, rs, d1, d2⟩ := e2.run as hok h32
    rw [hrun] at d1
    cases d1
    exact d2
  · have := e2.run_error as hok h32
    rw [hrun] at this
    cases this

example : ∃ m m' results, Mixer.new 2 2 = .ok m ∧
    m.run [.set 0 1 Level.unity, .block (fun _ _ _ => (0, 0)) mixIn mixOut] = .ok (m', results) ∧
    (∀ a ∈ [MixerAction.set 0 1 Level.unity, .block (fun _ _ _ => (0, 0)) mixIn mixOut], a.Ok 2 2) := by
  obtain ⟨m, e1, e2, e3⟩ := Mixer.Agrees.new (inputs := 2) (outputs := 2) (by omega) (by omega)
  have hok : ∀ a ∈ [MixerAction.set 0 1 Level.unity, .block (fun _ _ _ => (0, 0)) mixIn mixOut], a.Ok 2 2 := by
    intro a ha
    simp only [List.mem_cons, List.not_mem_nil, or_false] at ha
    rcases ha with rfl | rfl
    · exact ⟨by omega, by omega⟩
    · exact mix_block_ok
  obtain ⟨m', rs, d1, _⟩ := e2.run _ hok (by rw [e3]; exact ⟨by simp, trivial⟩)
  exact ⟨m, m', rs, e1, d1, hok⟩

/-- C37: before any level is set nothing is added to the output. -/
theorem C37_silent_at_first (inputs outputs : Nat) (hi : inputs ≤ 8) (ho : outputs ≤ 8)
    (al : Nat → Nat → Nat → Nat × Nat) (input output : Buf ℝ) (hb : (MixerAction.block al input output).Ok inputs outputs)
    (m : Mixer) (hm : Mixer.new inputs outputs = .ok m) :
    ∃ m' result, m.processAudio al input output = .ok (m', result) ∧ output.SameShape result ∧
      ∀ o f, o < output.channelCount → f < output.frameCount → result.sample? o f = output.sample? o f := by
  obtain ⟨m0, e1, e2, e3⟩ := Mixer.Agrees.new hi ho
  rw [hm] at e1
  cases e1
  obtain ⟨m', r, d1, _, _, d4, d5⟩ := e2.block al hb.1 hb.2.1 hb.2.2.1 hb.2.2.2
  refine ⟨m', r, d1, d4, ?_⟩
  intro o f h1 h2
  obtain ⟨v, hv⟩ := sample?_isSome output hb.2.1 o f h1 h2
  rw [d5 o f h1 h2, Mixer.sampleOr0_of hv, hv]
  simp [Mixer.effectiveGain_zero]

/-- C37: `Mixer::unity` adds each input to the output of the same number. -/
theorem C37_unity (n : Nat) (hn : n ≤ 8) (al : Nat → Nat → Nat → Nat × Nat) (input output : Buf ℝ)
    (hb : (MixerAction.block al input output).Ok n n) (hci : input.channelCount = n) (hco : output.channelCount = n) :
    ∃ m m' result, Mixer.unity n = .ok m ∧ m.processAudio al input output = .ok (m', result) ∧
      output.SameShape result ∧ ∀ o f, o < n → f < output.frameCount →
        result.sample? o f = some (output.sampleOr0 o f + input.sampleOr0 o f) := by
  obtain ⟨m0, e1, e2, e3⟩ := Mixer.Agrees.new hn hn
  obtain ⟨m, d1, d2, d3⟩ := e2.unity n n (le_refl _) (by rw [e3]; simp only [List.length_nil]; omega)
  obtain ⟨m', r, c1, _, _, c4, c5⟩ := d2.block al hb.1 hb.2.1 hb.2.2.1 hb.2.2.2
  refine ⟨m, m', r, ?_, c1, c4, ?_⟩
  · unfold Mixer.unity
    rw [e1]
    exact d1
  · intro o f h1 h2
    rw [c5 o f (by omega) h2, hci, Finset.sum_eq_single o]
    · simp [h1, Mixer.effectiveGain_one]
    · intro i hi hio
      simp only
      rw [if_neg (fun h : i = o ∧ i < n => hio h.1), Mixer.effectiveGain_zero, mul_zero]
    · intro h
      exact absurd (Finset.mem_range.mpr h1) h

example : ∃ m m' result, Mixer.unity 2 = .ok m ∧
    m.processAudio (fun _ _ _ => (0, 0)) mixIn mixOut = .ok (m', result) ∧ result.sample? 1 0 = some 3 := by
  obtain ⟨m, m', r, e1, e2, _, e4⟩ := C37_unity 2 (by omega) (fun _ _ _ => (0, 0)) mixIn mixOut mix_block_ok rfl rfl
  refine ⟨m, m', r, e1, e2, ?_⟩
  rw [e4 1 0 (by omega) (by show 0 < 2; omega)]
  simp [sampleOr0, mixIn, mixOut, sample?]

/-- C37: `Mixer::mono_to_stereo_splitter` adds its input to both outputs. -/
theorem C37_splitter (al : Nat → Nat → Nat → Nat × Nat) (input output : Buf ℝ)
    (hb : (MixerAction.block al input output).Ok 1 2) (hci : input.channelCount = 1)
    (hco : output.channelCount = 2) :
    ∃ m m' result, Mixer.monoToStereoSplitter = .ok m ∧ m.processAudio al input output = .ok (m', result) ∧
      output.SameShape result ∧ ∀ o f, o < 2 → f < output.frameCount →
        result.sample? o f = some (output.sampleOr0 o f + input.sampleOr0 0 f) := by
  obtain ⟨m0, e1, e2, e3⟩ := Mixer.Agrees.new (inputs := 1) (outputs := 2) (by omega) (by omega)
  obtain ⟨m1, d1, d2, d3⟩ := e2.set (i := 0) (o := 0) (by omega) (by omega) Level.unity (by rw [e3]; decide)
  obtain ⟨m2, b1, b2, b3⟩ := d2.set (i := 0) (o := 1) (by omega) (by omega) Level.unity (by rw [d3, e3]; decide)
  obtain ⟨m', r, c1, _, _, c4, c5⟩ := b2.block al hb.1 hb.2.1 hb.2.2.1 hb.2.2.2
  refine ⟨m2, m', r, ?_, c1, c4, ?_⟩
  · unfold Mixer.monoToStereoSplitter
    simp only [e1, d1, b1, bind, Except.bind]
  · intro o f h1 h2
    rw [c5 o f (by omega) h2, hci]
    have : o = 0 ∨ o = 1 := by omega
    rcases this with rfl | rfl <;> simp [setLevelOf, show Level.unity.linear = 1 from rfl, Mixer.effectiveGain_one]

/-- C38, for histories that set at most 32 levels between blocks: nothing waits and nothing faults.
Missing for the full claim: any number of levels. -/
theorem C38_set_level_returns_partial (inputs outputs : Nat) (hi : inputs ≤ 8) (ho : outputs ≤ 8)
    (as : List MixerAction) (hok : ∀ a ∈ as, a.Ok inputs outputs) (h32 : AtMost32 0 as) :
    ∃ m m' results, Mixer.new inputs outputs = .ok m ∧ m.run as = .ok (m', results) := by
  obtain ⟨m, e1, e2, e3⟩ := Mixer.Agrees.new hi ho
  obtain ⟨m', rs, d1, _⟩ := e2.run as hok (by rw [e3]; exact h32)
  exact ⟨m, m', rs, e1, d1⟩

example : AtMost32 0 [.set 0 1 Level.unity, .block (fun _ _ _ => (0, 0)) mixIn mixOut] := ⟨by omega, trivial⟩

/-- C38: the caller waits forever in exactly the other histories. -/
theorem C38_waits_iff (inputs outputs : Nat) (hi : inputs ≤ 8) (ho : outputs ≤ 8)
    (as : List MixerAction) (hok : ∀ a ∈ as, a.Ok inputs outputs) (m : Mixer)
    (hm : Mixer.new inputs outputs = .ok m) : m.run as = .error .block ↔ ¬ AtMost32 0 as := by
  obtain ⟨m0, e1, e2, e3⟩ := Mixer.Agrees.new hi ho
  rw [hm] at e1
  cases e1
  constructor
  · intro h h32
    obtain ⟨m', rs, d1, _⟩ := e2.run as hok (by rw [e3]; exact h32)
    rw [h] at d1
    cases d1
  · intro h
    exact e2.run_error as hok (by rw [e3]; exact h)

theorem atMost32_sets (l : List (Nat × Nat)) (x : Level) (n : Nat) :
    AtMost32 n (l.map fun p => .set p.1 p.2 x) → n + l.length ≤ 32 ∨ l = [] := by
  induction l generalizing n with
  | nil => intro _; exact Or.inr rfl
  | cons p l ih =>
    intro h
    left
    have h1 := h.1
    rcases ih (n + 1) h.2 with h2 | h2
    · simp only [List.length_cons]; omega
    · subst h2; simp only [List.length_cons, List.length_nil]; omega

/-- C38 is violated: setting all the levels of an 8 by 8 mixer, once each, waits forever. -/
theorem C38_set_level_returns_violated (x : Level) : ∃ m, Mixer.new 8 8 = .ok m ∧
    m.run ((List.product (List.range 8) (List.range 8)).map fun p => .set p.1 p.2 x) = .error .block := by
  obtain ⟨m, e1, _, _⟩ := Mixer.Agrees.new (inputs := 8) (outputs := 8) (by omega) (by omega)
  refine ⟨m, e1, (C38_waits_iff 8 8 (by omega) (by omega) _ ?_ m e1).mpr ?_⟩
  · intro a ha
    simp only [List.mem_map] at ha
    obtain ⟨p, hp, rfl⟩ := ha
    have := List.pair_mem_product.mp (show (p.1, p.2) ∈ _ from hp)
    exact ⟨List.mem_range.mp this.1, List.mem_range.mp this.2⟩
  · intro h
    have hl : (List.product (List.range 8) (List.range 8)).length = 64 := by decide
    rcases atMost32_sets _ _ _ h with h | h
    · omega
    · rw [h] at hl
      cases hl

end Rawdio
