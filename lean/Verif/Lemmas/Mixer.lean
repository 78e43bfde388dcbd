import Mathlib.Algebra.BigOperators.Group.Finset.Basic
import Mathlib.Tactic.Linarith
import Mathlib.Tactic.Ring
import Verif.Spec.Mixer
import Verif.Props.Buffers

/-! # Lemmas on the mixer -/

namespace Rawdio

open Buf

theorem isZero_iff (l : Level) : l.isZero = true ↔ |l.linear| ≤ epsilon := by
  have he : (0 : ℝ) < epsilon := by unfold epsilon; positivity
  have he1 : epsilon < (1 : ℝ) := by unfold epsilon; norm_num
  unfold Level.isZero relativeEq
  simp only [decide_eq_true_eq, sub_zero, abs_zero]
  constructor
  · rintro (h | h | h)
    · rw [h]; simpa using he.le
    · exact h
    · rw [max_eq_left (abs_nonneg _)] at h
      have := abs_nonneg l.linear
      nlinarith
  · intro h; exact Or.inr (Or.inl h)

theorem isUnity_iff (l : Level) : l.isUnity = true ↔ |l.linear - 1| ≤ max |l.linear| 1 * epsilon := by
  have he : (0 : ℝ) < epsilon := by unfold epsilon; positivity
  unfold Level.isUnity relativeEq
  simp only [decide_eq_true_eq, abs_one]
  have h1 : epsilon ≤ max |l.linear| 1 * epsilon := by
    have := le_max_right |l.linear| (1 : ℝ)
    nlinarith
  constructor
  · rintro (h | h | h)
    · rw [h]; simp [he.le]
    · exact h.trans h1
    · exact h
  · intro h; exact Or.inr (Or.inr h)

namespace MixerMatrix

/-- The level of a pair, 0 outside the matrix. -/
noncomputable def levelAt (m : MixerMatrix) (i o : Nat) : ℝ :=
  if i < m.inputCount ∧ o < m.outputCount then
    ((m.matrix[o * m.inputCount + i]?).getD Level.zero).linear else 0

/-- The array is that of the code. -/
structure Ok (m : MixerMatrix) : Prop where
  inputs : m.inputCount ≤ 8
  outputs : m.outputCount ≤ 8
  length : m.matrix.length = 64

theorem index_lt {m : MixerMatrix} (h : m.Ok) {i o : Nat} (hi : i < m.inputCount) (ho : o < m.outputCount) :
    o * m.inputCount + i < 64 := by
  have h1 := h.inputs
  have h2 := h.outputs
  have h3 : (o + 1) * m.inputCount ≤ 8 * 8 := Nat.mul_le_mul (by omega) h1
  rw [Nat.add_mul] at h3
  omega

theorem getLevel_ok {m : MixerMatrix} (h : m.Ok) (i o : Nat) : m.getLevel i o = .ok ⟨m.levelAt i o⟩ := by
  unfold getLevel levelAt
  by_cases hio : i < m.inputCount ∧ o < m.outputCount
  · have hl := index_lt h hio.1 hio.2
    have : m.matrix[o * m.inputCount + i]? = some (m.matrix[o * m.inputCount + i]'(by rw [h.length]; exact hl)) :=
      List.getElem?_eq_getElem _
    unfold getIndex
    rw [if_pos hio, if_pos hio, if_pos hio]
    simp only [bind, Except.bind, this, Option.getD_some]
  · rw [if_neg hio, if_neg hio]
    rfl

theorem setLevel_ok {m : MixerMatrix} (h : m.Ok) {i o : Nat} (hi : i < m.inputCount) (ho : o < m.outputCount)
    (x : Level) : ∃ m', m.setLevel i o x = .ok m' ∧ m'.Ok ∧ m'.inputCount = m.inputCount ∧
      m'.outputCount = m.outputCount ∧ m'.levelAt = setLevelOf m.levelAt i o x.linear := by
  have hl := index_lt h hi ho
  refine ⟨⟨m.inputCount, m.outputCount, m.matrix.set (o * m.inputCount + i) x⟩, ?_, ?_, rfl, rfl, ?_⟩
  · unfold setLevel getIndex
    rw [if_pos ⟨hi, ho⟩]
    simp only [bind, Except.bind]
    rw [if_pos (by rw [h.length]; exact hl)]
  · exact ⟨h.inputs, h.outputs, by simp [h.length]⟩
  · funext i' o'
    unfold levelAt setLevelOf
    simp only
    by_cases hio : i' < m.inputCount ∧ o' < m.outputCount
    · rw [if_pos hio, if_pos hio]
      by_cases heq : i' = i ∧ o' = o
      · rw [if_pos heq, heq.1, heq.2, List.getElem?_set_self (by rw [h.length]; exact hl)]
        rfl
      · rw [if_neg heq, List.getElem?_set_ne]
        intro hc
        apply heq
        have hd : o = o' := by
          have e1 : (o * m.inputCount + i) / m.inputCount = o := by
            rw [Nat.mul_comm, Nat.mul_add_div (by omega), Nat.div_eq_of_lt hi, Nat.add_zero]
          have e2 : (o' * m.inputCount + i') / m.inputCount = o' := by
            rw [Nat.mul_comm, Nat.mul_add_div (by omega), Nat.div_eq_of_lt hio.1, Nat.add_zero]
          rw [← e1, ← e2, hc]
        subst hd
        omega
    · rw [if_neg hio, if_neg hio, if_neg (fun hc => hio (by rw [hc.1, hc.2]; exact ⟨hi, ho⟩))]

theorem empty_ok : empty.Ok := ⟨by decide, by decide, by simp [empty, maxInputCount, maxOutputCount]⟩

theorem empty_level : empty.levelAt = fun _ _ => 0 := by
  funext i o
  unfold levelAt empty
  simp

theorem new_level (n k : Nat) :
    (⟨n, k, List.replicate (maxInputCount * maxOutputCount) Level.zero⟩ : MixerMatrix).levelAt = fun _ _ => 0 := by
  funext i o
  unfold levelAt
  split
  · rw [List.getElem?_replicate]
    split <;> rfl
  · rfl

end MixerMatrix

namespace Mixer

/-- One input added to one output. -/
theorem mixOne_ok (al : Nat → Nat × Nat) {matrix : MixerMatrix} (h : matrix.Ok) {input output : Buf ℝ}
    (hi : input.WF) (ho : output.WF) (hw : output.Writable) (hf : input.frameCount = output.frameCount)
    {o i : Nat} (hoc : o < output.channelCount) (hic : i < input.channelCount) :
    ∃ out, mixOne al matrix input output o i = .ok out ∧ output.SameShape out ∧ out.WF ∧ out.Writable ∧
      ∀ c f, c < output.channelCount → f < output.frameCount → out.sample? c f = some (output.sampleOr0 c f +
        if c = o then input.sampleOr0 i f * effectiveGain (matrix.levelAt i o) else 0) := by
  have hsome : ∀ c f, c < output.channelCount → f < output.frameCount →
      output.sample? c f = some (output.sampleOr0 c f) := by
    intro c f hc hf
    obtain ⟨v, hv⟩ := sample?_isSome output ho c f hc hf
    unfold sampleOr0
    rw [hv]
    rfl
  have hsome' : ∀ f, f < output.frameCount → input.sample? i f = some (input.sampleOr0 i f) := by
    intro f hf'
    obtain ⟨v, hv⟩ := sample?_isSome input hi i f hic (by omega)
    unfold sampleOr0
    rw [hv]
    rfl
  unfold mixOne
  rw [MixerMatrix.getLevel_ok h]
  simp only [bind, Except.bind]
  obtain ⟨l, hl⟩ : ∃ l : Level, l = ⟨matrix.levelAt i o⟩ := ⟨_, rfl⟩
  have hlin : matrix.levelAt i o = l.linear := by rw [hl]
  rw [← hl, hlin]
  by_cases h0 : l.isZero = true
  · rw [if_pos h0]
    refine ⟨output, rfl, SameShape.refl _, ho, hw, ?_⟩
    intro c f hc hf
    have : effectiveGain l.linear = 0 := by
      unfold effectiveGain
      rw [if_pos ((isZero_iff l).mp h0)]
    rw [hsome c f hc hf, this]
    simp
  · rw [if_neg h0]
    have h0' := (not_congr (isZero_iff l)).mp h0
    by_cases h1 : l.isUnity = true
    · rw [if_pos h1]
      obtain ⟨b, e1, e2, e3, e4, e5⟩ := C30_add_from al output input ho hw hi (Loc.ofChannel i) (Loc.ofChannel o)
        1 output.frameCount (by simp only [Loc.ofChannel]; omega) (by simp only [Loc.ofChannel]; omega)
        (by simp only [Loc.ofChannel]; omega) (by simp only [Loc.ofChannel]; omega)
      refine ⟨b, e1, e2, e3, e4, ?_⟩
      intro c f hc hf
      have hg : effectiveGain l.linear = 1 := by
        unfold effectiveGain
        rw [if_neg h0', if_pos ((isUnity_iff l).mp h1)]
      rw [e5 c f, hg]
      simp only [Loc.ofChannel, Nat.zero_add, Nat.sub_zero, Nat.zero_le, true_and]
      by_cases hco : c = o
      · subst hco
        rw [if_pos ⟨le_refl _, by omega, hf⟩, if_pos rfl, Nat.sub_self, Nat.add_zero, hsome' f hf, hsome c f hc hf]
        simp
      · rw [if_neg (by omega), if_neg hco, hsome c f hc hf]
        simp
    · rw [if_neg h1]
      obtain ⟨b, e1, e2, e3, e4, e5⟩ := C30_add_from_with_gain al output input ho hw hi (Loc.ofChannel i)
        (Loc.ofChannel o) 1 output.frameCount l.linear (by simp only [Loc.ofChannel]; omega)
        (by simp only [Loc.ofChannel]; omega)
        (by simp only [Loc.ofChannel]; omega) (by simp only [Loc.ofChannel]; omega)
      refine ⟨b, e1, e2, e3, e4, ?_⟩
      intro c f hc hf
      have hg : effectiveGain l.linear = l.linear := by
        unfold effectiveGain
        rw [if_neg h0', if_neg ((not_congr (isUnity_iff l)).mp h1)]
      rw [e5 c f, hg]
      simp only [Loc.ofChannel, Nat.zero_add, Nat.sub_zero, Nat.zero_le, true_and]
      by_cases hco : c = o
      · subst hco
        rw [if_pos ⟨le_refl _, by omega, hf⟩, if_pos rfl, Nat.sub_self, Nat.add_zero, hsome' f hf, hsome c f hc hf]
        simp
      · rw [if_neg (by omega), if_neg hco, hsome c f hc hf]
        simp

theorem sampleOr0_of {b : Buf ℝ} {c f : Nat} {x : ℝ} (h : b.sample? c f = some x) : b.sampleOr0 c f = x := by
  unfold sampleOr0
  rw [h]
  rfl

/-- All inputs added to one output. -/
theorem mixOutput_ok (al : Nat → Nat → Nat × Nat) {matrix : MixerMatrix} (h : matrix.Ok) {input output : Buf ℝ}
    (hi : input.WF) (ho : output.WF) (hw : output.Writable) (hf : input.frameCount = output.frameCount)
    {o : Nat} (hoc : o < output.channelCount) (n : Nat) (hn : n ≤ input.channelCount) :
    ∃ out, (List.range n).foldlM (fun output i => mixOne (al i) matrix input output o i) output = .ok out ∧
      output.SameShape out ∧ out.WF ∧ out.Writable ∧
      ∀ c f, c < output.channelCount → f < output.frameCount → out.sample? c f = some (output.sampleOr0 c f +
        if c = o then ∑ i ∈ Finset.range n, input.sampleOr0 i f * effectiveGain (matrix.levelAt i o) else 0) := by
  induction n with
  | zero =>
    refine ⟨output, rfl, SameShape.refl _, ho, hw, ?_⟩
    intro c f hc hf
    obtain ⟨v, hv⟩ := sample?_isSome output ho c f hc hf
    rw [sampleOr0_of hv, hv]
    simp
  | succ n ih =>
    obtain ⟨out, e1, e2, e3, e4, e5⟩ := ih (by omega)
    have hcc := e2.channelCount
    have hfc := e2.frameCount
    obtain ⟨out', d1, d2, d3, d4, d5⟩ := mixOne_ok (al n) h hi e3 e4 (by omega) (o := o) (i := n) (by omega) (by omega)
    refine ⟨out', ?_, e2.trans d2, d3, d4, ?_⟩
    · rw [List.range_succ, List.foldlM_append, e1]
      simp only [List.foldlM_cons, List.foldlM_nil, bind_pure]
      exact d1
    · intro c f hc hf'
      rw [d5 c f (by omega) (by omega), sampleOr0_of (e5 c f hc hf'), Finset.sum_range_succ]
      split <;> simp [add_assoc]

/-- A block. -/
theorem mixAll_ok (al : Nat → Nat → Nat → Nat × Nat) {matrix : MixerMatrix} (h : matrix.Ok)
    {input output : Buf ℝ} (hi : input.WF) (ho : output.WF) (hw : output.Writable)
    (hf : input.frameCount = output.frameCount) (n : Nat) (hn : n ≤ output.channelCount) :
    ∃ out, (List.range n).foldlM (fun output o => (List.range input.channelCount).foldlM
        (fun output i => mixOne (al o i) matrix input output o i) output) output = .ok out ∧
      output.SameShape out ∧ out.WF ∧ out.Writable ∧
      ∀ c f, c < output.channelCount → f < output.frameCount → out.sample? c f = some (output.sampleOr0 c f +
        if c < n then ∑ i ∈ Finset.range input.channelCount,
          input.sampleOr0 i f * effectiveGain (matrix.levelAt i c) else 0) := by
  induction n with
  | zero =>
    refine ⟨output, rfl, SameShape.refl _, ho, hw, ?_⟩
    intro c f hc hf
    obtain ⟨v, hv⟩ := sample?_isSome output ho c f hc hf
    rw [sampleOr0_of hv, hv]
    simp
  | succ n ih =>
    obtain ⟨out, e1, e2, e3, e4, e5⟩ := ih (by omega)
    have hcc := e2.channelCount
    have hfc := e2.frameCount
    obtain ⟨out', d1, d2, d3, d4, d5⟩ := mixOutput_ok (al n) h hi e3 e4 (by omega) (o := n) (by omega)
      input.channelCount (le_refl _)
    refine ⟨out', ?_, e2.trans d2, d3, d4, ?_⟩
    · rw [List.range_succ, List.foldlM_append, e1]
      simp only [List.foldlM_cons, List.foldlM_nil, bind_pure]
      exact d1
    · intro c f hc hf'
      rw [d5 c f (by omega) (by omega), sampleOr0_of (e5 c f hc hf')]
      by_cases h1 : c = n
      · subst h1
        rw [if_pos rfl, if_neg (by omega), if_pos (by omega)]
        simp
      · by_cases h2 : c < n
        · rw [if_neg h1, if_pos h2, if_pos (by omega)]
          simp
        · rw [if_neg h1, if_neg h2, if_neg (by omega)]
          simp

/-- The two ends agree, up to what is in the channel. -/
structure Agrees (inputs outputs : Nat) (level : Nat → Nat → ℝ) (m : Mixer) : Prop where
  gain : m.gainMatrix.Ok
  inputs : m.gainMatrix.inputCount = inputs
  outputs : m.gainMatrix.outputCount = outputs
  levels : m.gainMatrix.levelAt = level
  last : m.processEvents.processorMatrix.Ok ∧ m.processEvents.processorMatrix.levelAt = level

theorem Agrees.set {inputs outputs : Nat} {level : Nat → Nat → ℝ} {m : Mixer} (h : m.Agrees inputs outputs level)
    {i o : Nat} (hi : i < inputs) (ho : o < outputs) (x : Level) (hc : m.channel.length < mixerEventCapacity) :
    ∃ m', m.setLevel i o x = .ok m' ∧ m'.Agrees inputs outputs (setLevelOf level i o x.linear) ∧
      m'.channel.length = m.channel.length + 1 := by
  obtain ⟨g, e1, e2, e3, e4, e5⟩ := MixerMatrix.setLevel_ok h.gain (i := i) (o := o)
    (by rw [h.inputs]; exact hi) (by rw [h.outputs]; exact ho) x
  refine ⟨⟨g, m.channel ++ [g], m.processorMatrix⟩, ?_, ?_, by simp⟩
  · unfold setLevel
    rw [e1]
    simp only [bind, Except.bind]
    rw [if_pos hc]
  · rw [h.levels] at e5
    refine ⟨e2, e3.trans h.inputs, e4.trans h.outputs, e5, ?_⟩
    unfold processEvents
    simp only [List.foldl_append, List.foldl_cons, List.foldl_nil]
    exact ⟨e2, e5⟩

/-- A full channel. -/
theorem Agrees.set_full {inputs outputs : Nat} {level : Nat → Nat → ℝ} {m : Mixer}
    (h : m.Agrees inputs outputs level) {i o : Nat} (hi : i < inputs) (ho : o < outputs) (x : Level)
    (hc : ¬ m.channel.length < mixerEventCapacity) : m.setLevel i o x = .error .block := by
  obtain ⟨g, e1, _⟩ := MixerMatrix.setLevel_ok h.gain (i := i) (o := o)
    (by rw [h.inputs]; exact hi) (by rw [h.outputs]; exact ho) x
  unfold setLevel
  rw [e1]
  simp only [bind, Except.bind]
  rw [if_neg hc]

theorem Agrees.block {inputs outputs : Nat} {level : Nat → Nat → ℝ} {m : Mixer}
    (h : m.Agrees inputs outputs level) (al : Nat → Nat → Nat → Nat × Nat) {input output : Buf ℝ}
    (hi : input.WF) (ho : output.WF) (hw : output.Writable) (hf : input.frameCount = output.frameCount) :
    ∃ m' out, m.processAudio al input output = .ok (m', out) ∧ m'.Agrees inputs outputs level ∧
      m'.channel = [] ∧ Mixed level input output out := by
  obtain ⟨out, e1, e2, e3, e4, e5⟩ := mixAll_ok al h.last.1 hi ho hw hf output.channelCount (le_refl _)
  refine ⟨m.processEvents, out, ?_, ⟨h.gain, h.inputs, h.outputs, h.levels, h.last⟩, rfl, e2, ?_⟩
  · unfold processAudio
    simp only [e1, bind, Except.bind]
  · intro o f ho hf
    rw [e5 o f ho hf, if_pos ho, h.last.2]

theorem Agrees.new {inputs outputs : Nat} (hi : inputs ≤ 8) (ho : outputs ≤ 8) :
    ∃ m, Mixer.new inputs outputs = .ok m ∧ m.Agrees inputs outputs (fun _ _ => 0) ∧ m.channel = [] := by
  refine ⟨⟨⟨inputs, outputs, List.replicate (8 * 8) Level.zero⟩, [], MixerMatrix.empty⟩, ?_, ?_, rfl⟩
  · unfold Mixer.new MixerMatrix.new
    rw [if_pos ⟨hi, ho⟩]
    rfl
  · exact ⟨⟨hi, ho, by simp⟩, rfl, rfl, MixerMatrix.new_level _ _, MixerMatrix.empty_ok,
      MixerMatrix.empty_level⟩

/-- Histories. -/
theorem Agrees.run {inputs outputs : Nat} (as : List MixerAction) : ∀ {level : Nat → Nat → ℝ} {m : Mixer},
    m.Agrees inputs outputs level → (∀ a ∈ as, a.Ok inputs outputs) → AtMost32 m.channel.length as →
    ∃ m' results, m.run as = .ok (m', results) ∧ MixedBlocks level as results := by
  induction as with
  | nil => intro level m _ _ _; exact ⟨m, [], rfl, trivial⟩
  | cons a as ih =>
    intro level m h hok h32
    have hok' : ∀ a ∈ as, a.Ok inputs outputs := fun x hx => hok x (List.mem_cons_of_mem _ hx)
    have ha := hok a List.mem_cons_self
    cases a with
    | set i o x =>
      obtain ⟨m1, e1, e2, e3⟩ := h.set ha.1 ha.2 x h32.1
      obtain ⟨m2, rs, d1, d2⟩ := ih e2 hok' (by rw [e3]; exact h32.2)
      refine ⟨m2, rs, ?_, d2⟩
      unfold Mixer.run
      rw [e1]
      exact d1
    | block al input output =>
      obtain ⟨m1, out, e1, e2, e3, e4⟩ := h.block al ha.1 ha.2.1 ha.2.2.1 ha.2.2.2
      obtain ⟨m2, rs, d1, d2⟩ := ih e2 hok' (by rw [e3]; exact h32)
      refine ⟨m2, out :: rs, ?_, e4, d2⟩
      unfold Mixer.run
      simp only [e1, bind, Except.bind, d1]

end Mixer
end Rawdio

namespace Rawdio
namespace Mixer

/-- A history that finishes sets at most 32 levels between blocks. -/
theorem Agrees.run_error {inputs outputs : Nat} (as : List MixerAction) : ∀ {level : Nat → Nat → ℝ} {m : Mixer},
    m.Agrees inputs outputs level → (∀ a ∈ as, a.Ok inputs outputs) → ¬ AtMost32 m.channel.length as →
    m.run as = .error .block := by
  induction as with
  | nil => intro level m _ _ h; exact absurd trivial h
  | cons a as ih =>
    intro level m h hok h32
    have hok' : ∀ a ∈ as, a.Ok inputs outputs := fun x hx => hok x (List.mem_cons_of_mem _ hx)
    have ha := hok a List.mem_cons_self
    cases a with
    | set i o x =>
      unfold Mixer.run
      by_cases hc : m.channel.length < mixerEventCapacity
      · obtain ⟨m1, e1, e2, e3⟩ := h.set ha.1 ha.2 x hc
        rw [e1]
        exact ih e2 hok' (by rw [e3]; exact fun h => h32 ⟨hc, h⟩)
      · rw [h.set_full ha.1 ha.2 x hc]
        rfl
    | block al input output =>
      obtain ⟨m1, out, e1, e2, e3, e4⟩ := h.block al ha.1 ha.2.1 ha.2.2.1 ha.2.2.2
      unfold Mixer.run
      simp only [e1, bind, Except.bind, ih e2 hok' (by rw [e3]; exact h32)]

theorem Agrees.unity (n k : Nat) (hk : k ≤ n) : ∀ {level : Nat → Nat → ℝ} {m : Mixer}, m.Agrees n n level →
    m.channel.length + k ≤ 32 →
    ∃ m', (List.range k).foldlM (fun m c => m.setLevel c c Level.unity) m = .ok m' ∧
      m'.Agrees n n (fun i o => if i = o ∧ i < k then 1 else level i o) ∧
      m'.channel.length = m.channel.length + k := by
  induction k with
  | zero => intro level m h _; exact ⟨m, rfl, by simpa using h, rfl⟩
  | succ k ih =>
    intro level m h hl
    obtain ⟨m1, e1, e2, e3⟩ := ih (by omega) h (by omega)
    obtain ⟨m2, d1, d2, d3⟩ := e2.set (i := k) (o := k) (by omega) (by omega) Level.unity
      (by rw [e3]; unfold mixerEventCapacity; omega)
    refine ⟨m2, ?_, ?_, by omega⟩
    · rw [List.range_succ, List.foldlM_append, e1]
      simp only [List.foldlM_cons, List.foldlM_nil, bind_pure]
      exact d1
    · have : setLevelOf (fun i o => if i = o ∧ i < k then 1 else level i o) k k Level.unity.linear =
          fun i o => if i = o ∧ i < k + 1 then (1 : ℝ) else level i o := by
        funext i o
        unfold setLevelOf Level.unity
        simp only
        by_cases h1 : i = k ∧ o = k
        · rw [if_pos h1, if_pos (by omega)]
          rfl
        · rw [if_neg h1]
          by_cases h2 : i = o ∧ i < k
          · rw [if_pos h2, if_pos (by omega)]
          · rw [if_neg h2, if_neg (by omega)]
      rw [← this]
      exact d2

theorem effectiveGain_one : effectiveGain 1 = 1 := by
  unfold effectiveGain
  rw [if_neg (by unfold epsilon; norm_num), if_pos (by unfold epsilon; norm_num)]

theorem effectiveGain_zero : effectiveGain 0 = 0 := by
  unfold effectiveGain
  rw [if_pos (by unfold epsilon; norm_num)]

end Mixer
end Rawdio
