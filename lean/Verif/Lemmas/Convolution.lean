import Verif.Lemmas.Fourier
import Verif.Lemmas.BiquadRun
import Verif.Lemmas.EngineLoop

/-! # The convolution processor follows the direct sum -/

namespace Rawdio
namespace Convolver

open Buf Biquad

/-- The last `n` values of the input after `t` frames. -/
noncomputable def past (x : ℕ → ℝ) (n t : ℕ) : List ℂ :=
  (List.range n).map (fun j : ℕ => if n ≤ t + j then (x (t + j - n) : ℂ) else 0)

theorem past_length (x : ℕ → ℝ) (n t : ℕ) : (past x n t).length = n := by simp [past]

theorem past_get (x : ℕ → ℝ) (n t j : ℕ) (hj : j < n) :
    (past x n t).getD j 0 = if n ≤ t + j then (x (t + j - n) : ℂ) else 0 := by
  rw [List.getD_eq_getElem?_getD, past, List.getElem?_map, List.getElem?_range hj]
  rfl

theorem past_shift (x : ℕ → ℝ) (n t k : ℕ) (hk : k ≤ n) (audio : List ℝ) (hl : audio.length = k)
    (ha : ∀ f < k, audio[f]? = some (x (t + f))) :
    (past x n t).drop k ++ audio.map (fun x : ℝ => (x : ℂ)) = past x n (t + k) := by
  apply List.ext_getElem?
  intro i
  by_cases hi : i < n
  · have h2 : (past x n (t + k))[i]? = some (if n ≤ t + k + i then (x (t + k + i - n) : ℂ) else 0) := by
      rw [past, List.getElem?_map, List.getElem?_range hi]
      rfl
    rw [h2]
    by_cases h : i < n - k
    · rw [List.getElem?_append_left (by rw [List.length_drop, past_length]; exact h), List.getElem?_drop, past,
        List.getElem?_map, List.getElem?_range (by omega)]
      simp only [Option.map_some, Nat.add_assoc]
    · rw [List.getElem?_append_right (by rw [List.length_drop, past_length]; omega), List.length_drop, past_length,
        List.getElem?_map, ha _ (by omega), if_pos (by omega)]
      simp only [Option.map_some]
      rw [show t + (i - (n - k)) = t + k + i - n by omega]
  · rw [List.getElem?_eq_none (by simp [past_length]; omega), List.getElem?_eq_none (by simp [past_length]; omega)]

theorem zipInto_const {A B : Type} (g : A → B) (a : List A) (b : List B) (h : a.length = b.length) :
    Kernels.zipInto (fun x _ => g x) a b = a.map g := by
  induction a generalizing b with
  | nil =>
    cases b with
    | nil => rfl
    | cons y ys => simp at h
  | cons x xs ih =>
    cases b with
    | nil => simp at h
    | cons y ys => simp [Kernels.zipInto, ih ys (by simpa using h)]

/-- A list over the channels of which the first `n` have been changed. -/
noncomputable def changed {A : Type} (before after : ℕ → A) (channels n : ℕ) : List A :=
  (List.range channels).map (fun c => if c < n then after c else before c)

theorem changed_zero {A : Type} (before after : ℕ → A) (channels : ℕ) :
    changed before after channels 0 = (List.range channels).map before := by simp [changed]

theorem changed_full {A : Type} (before after : ℕ → A) (channels : ℕ) :
    changed before after channels channels = (List.range channels).map after := by
  apply List.map_congr_left
  intro c hc
  rw [if_pos (List.mem_range.mp hc)]

theorem changed_set {A : Type} (before after : ℕ → A) (channels n : ℕ) :
    (changed before after channels n).set n (after n) = changed before after channels (n + 1) := by
  apply List.ext_getElem
  · simp [changed]
  · intro i h1 h2
    rw [List.getElem_set]
    simp only [changed, List.getElem_map, List.getElem_range]
    by_cases h : n = i
    · subst h
      rw [if_pos rfl, if_pos (by omega)]
    · rw [if_neg h]
      by_cases h' : i < n
      · rw [if_pos h', if_pos (by omega)]
      · rw [if_neg h', if_neg (by omega)]

theorem consume_one (l : List ℂ) (k : ℕ) (audio : List ℝ) (hk : k ≤ l.length) (ha : audio.length = k) :
    (do
      let l ← copyWithinList l k (l.length - k) 0
      modifyRange l (l.length - k) l.length
        (fun slice => .ok (Kernels.zipInto (fun (x : ℝ) _ => (x : ℂ)) audio slice)) : Res (List ℂ)) = .ok (l.drop k ++ audio.map (fun x : ℝ => (x : ℂ))) := by
  have h1 : copyWithinList l k (l.length - k) 0 = .ok (l.drop k ++ l.drop (l.length - k)) := by
    unfold copyWithinList
    rw [if_pos ⟨by omega, by omega⟩]
    congr 1
    rw [List.take_zero, List.nil_append, Nat.zero_add, List.take_of_length_le (by rw [List.length_drop])]
  have hl : (l.drop k ++ l.drop (l.length - k)).length = l.length := by simp [hk]
  rw [h1]
  simp only [step_ok]
  rw [hl, modifyRange_ok (part := audio.map (fun x : ℝ => (x : ℂ))) (by omega) (by omega)]
  · show Except.ok _ = _
    congr 1
    have h2 : (l.drop k).length = l.length - k := by simp
    rw [List.take_left' h2, List.drop_of_length_le (l := l.drop k ++ l.drop (l.length - k)) (by rw [hl]), List.append_nil]
  · congr 1
    exact zipInto_const _ _ _ (by simp; omega)

theorem consumeChannel_ok (inputs : List (List ℂ)) (input : Buf ℝ) (c : ℕ) (audio : List ℝ) (hc : c < inputs.length)
    (hk : input.frameCount ≤ inputs[c].length) (hd : input.channelData (Loc.ofChannel c) = .ok audio)
    (ha : audio.length = input.frameCount) :
    consumeChannel input inputs c =
      .ok (inputs.set c (inputs[c].drop input.frameCount ++ audio.map (fun x : ℝ => (x : ℂ)))) := by
  have h := consume_one inputs[c] input.frameCount audio hk ha
  unfold consumeChannel
  rw [index_ok hc]
  simp only [step_ok]
  obtain ⟨l1, h1, h2⟩ := bind_ok h
  rw [h1]
  simp only [step_ok, hd]
  rw [h2]
  simp only [step_ok]
  rw [assign_ok _ hc]

theorem consume_first (g : ℕ → ℕ → ℝ) (n t channels : ℕ) (input : Buf ℝ) (hw : input.WF)
    (hc : channels ≤ input.channelCount) (hn : input.frameCount ≤ n)
    (hs : ∀ c < channels, ∀ f < input.frameCount, input.sample? c f = some (g c (t + f))) (c : Convolver)
    (hi : c.input = (List.range channels).map (fun c => past (g c) n t)) :
    (List.range channels).foldlM (consumeChannel input) c.input =
      .ok ((List.range channels).map (fun c => past (g c) n (t + input.frameCount))) := by
  have key : ∀ k ≤ channels, (List.range k).foldlM (consumeChannel input) c.input =
      .ok (changed (fun c => past (g c) n t) (fun c => past (g c) n (t + input.frameCount)) channels k) := by
    intro k hk
    induction k with
    | zero => rw [hi, changed_zero]; rfl
    | succ k ih =>
      obtain ⟨audio, a1, a2, a3⟩ := channelData_spec input hw (Loc.ofChannel k) (by simp only [Loc.ofChannel]; omega)
        (Nat.zero_le _)
      simp only [Loc.ofChannel, Nat.sub_zero, Nat.zero_add] at a2 a3
      have hlen : k < (changed (fun c => past (g c) n t) (fun c => past (g c) n (t + input.frameCount)) channels k).length := by
        simp [changed]; omega
      have hget : (changed (fun c => past (g c) n t) (fun c => past (g c) n (t + input.frameCount)) channels k)[k] =
          past (g k) n t := by simp [changed]
      rw [List.range_succ, List.foldlM_append, ih (by omega)]
      simp only [step_ok, List.foldlM_cons, List.foldlM_nil]
      rw [consumeChannel_ok _ input k audio hlen (by rw [hget, past_length]; exact hn) a1 a2]
      simp only [step_ok]
      rw [hget, past_shift (g k) n t _ hn audio a2 (fun f hf => by rw [a3, hs k (by omega) f hf]), changed_set]
      rfl
  rw [key channels le_rfl, changed_full]

theorem consume_ok (g : ℕ → ℕ → ℝ) (n t channels : ℕ) (input : Buf ℝ) (hw : input.WF)
    (hc : input.channelCount = channels) (hn : input.frameCount ≤ n)
    (hs : ∀ c < channels, ∀ f < input.frameCount, input.sample? c f = some (g c (t + f))) (c : Convolver)
    (hi : c.input = (List.range channels).map (fun c => past (g c) n t)) :
    c.consumeInput input = .ok { c with input := (List.range channels).map (fun c => past (g c) n (t + input.frameCount)) } := by
  unfold consumeInput
  rw [hc, consume_first g n t channels input hw hc.ge hn hs c hi]
  rfl

/-- A change of one channel of a slice of frames, seen from the parent. -/
theorem slice_modify (p : Buf ℝ) (hw : p.WF) (hm : p.Writable) (offset n c : ℕ) (hc : c < p.channelCount)
    (hn : offset + n ≤ p.frameCount) (g : List ℝ → Res (List ℝ)) (F : ℕ → ℝ → ℝ)
    (hg : ∀ d, d.length = n → ∃ d', g d = .ok d' ∧ d'.length = n ∧ ∀ f < n, d'[f]? = (d[f]?).map (F f)) :
    ∃ p', (Buf.slice p ⟨0, offset, p.channelCount, n⟩ true).modifyChannel (Loc.ofChannel c) g =
        .ok (.slice p' ⟨0, offset, p'.channelCount, n⟩ true) ∧ p.SameShape p' ∧ p'.WF ∧ p'.Writable ∧
      ∀ c' f, p'.sample? c' f = if c' = c ∧ offset ≤ f ∧ f < offset + n then (p.sample? c' f).map (F (f - offset))
        else p.sample? c' f := by
  obtain ⟨l, l1, l2, l3⟩ := channelData_spec p hw ⟨c, offset⟩ hc (by simp only; omega)
  simp only at l2 l3
  obtain ⟨d', e1, e2, e3⟩ := hg (l.take n) (by simp; omega)
  have hmod : modifyRange l 0 n g = .ok (d' ++ l.drop n) := by
    rw [modifyRange_ok (part := d') (by omega) (by omega) (by simpa using e1)]
    simp
  obtain ⟨p', p1, p2, p3, p4, p5⟩ := modifyChannel_spec p hw hm ⟨c, offset⟩ hc (by simp only; omega)
    (fun data => modifyRange data 0 n g) l (d' ++ l.drop n) l1 hmod (by simp; omega)
  have hcc := p2.channelCount
  refine ⟨p', ?_, p2, p3, p4, ?_⟩
  · simp only [modifyChannel, Loc.ofChannel, Loc.offsetFrames, Loc.offsetChannels, Nat.zero_add, Nat.add_zero, Nat.sub_zero,
      Nat.zero_le, if_true]
    rw [p1, hcc]
    rfl
  · intro c' f
    rw [p5]
    simp only
    by_cases h : c' = c ∧ offset ≤ f ∧ f < p.frameCount
    · rw [if_pos h]
      obtain ⟨rfl, h1, h2⟩ := h
      by_cases h3 : f < offset + n
      · rw [if_pos ⟨rfl, h1, h3⟩, List.getElem?_append_left (by omega), e3 _ (by omega), List.getElem?_take,
          if_pos (by omega), l3, Nat.add_sub_cancel' h1]
      · rw [if_neg (by omega), List.getElem?_append_right (by omega), List.getElem?_drop, l3]
        congr 1
        omega
    · rw [if_neg h, if_neg (by omega)]

/-- The same for all channels one after the other. -/
theorem slice_loop (p : Buf ℝ) (hw : p.WF) (hm : p.Writable) (offset n : ℕ) (hn : offset + n ≤ p.frameCount)
    (step : Buf ℝ → ℕ → Res (Buf ℝ)) (g : ℕ → List ℝ → Res (List ℝ)) (F : ℕ → ℕ → ℝ → ℝ)
    (hstep : ∀ c < p.channelCount, ∀ b, step b c = b.modifyChannel (Loc.ofChannel c) (g c))
    (hg : ∀ c < p.channelCount, ∀ d, d.length = n → ∃ d', g c d = .ok d' ∧ d'.length = n ∧
      ∀ f < n, d'[f]? = (d[f]?).map (F c f)) :
    ∃ p', (List.range p.channelCount).foldlM step (Buf.slice p ⟨0, offset, p.channelCount, n⟩ true) =
        .ok (.slice p' ⟨0, offset, p'.channelCount, n⟩ true) ∧ p.SameShape p' ∧ p'.WF ∧ p'.Writable ∧
      ∀ c f, p'.sample? c f = if offset ≤ f ∧ f < offset + n then (p.sample? c f).map (F c (f - offset))
        else p.sample? c f := by
  have key : ∀ k ≤ p.channelCount, ∃ p', (List.range k).foldlM step (Buf.slice p ⟨0, offset, p.channelCount, n⟩ true) =
        .ok (.slice p' ⟨0, offset, p'.channelCount, n⟩ true) ∧ p.SameShape p' ∧ p'.WF ∧ p'.Writable ∧
      ∀ c f, p'.sample? c f = if c < k ∧ offset ≤ f ∧ f < offset + n then (p.sample? c f).map (F c (f - offset))
        else p.sample? c f := by
    intro k hk
    induction k with
    | zero => exact ⟨p, rfl, SameShape.refl _, hw, hm, fun c f => by rw [if_neg (by omega)]⟩
    | succ k ih =>
      obtain ⟨p1, e1, e2, e3, e4, e5⟩ := ih (by omega)
      have hcc := e2.channelCount
      have hfc := e2.frameCount
      obtain ⟨p2, c1, c2, c3, c4, c5⟩ := slice_modify p1 e3 e4 offset n k (by omega) (by omega) (g k) (F k) (hg k (by omega))
      refine ⟨p2, ?_, e2.trans c2, c3, c4, ?_⟩
      · rw [List.range_succ, List.foldlM_append, e1]
        simp only [step_ok, List.foldlM_cons, List.foldlM_nil]
        rw [hstep k (by omega), c1]
        rfl
      · intro c f
        rw [c5, e5]
        by_cases h : c = k ∧ offset ≤ f ∧ f < offset + n
        · rw [if_pos h, if_neg (by omega), if_pos (by omega), h.1]
        · rw [if_neg h]
          by_cases h' : c < k ∧ offset ≤ f ∧ f < offset + n
          · rw [if_pos h', if_pos (by omega)]
          · rw [if_neg h', if_neg (by omega)]
  obtain ⟨p', h1, h2, h3, h4, h5⟩ := key _ le_rfl
  refine ⟨p', h1, h2, h3, h4, fun c f => ?_⟩
  rw [h5]
  by_cases hc : c < p.channelCount
  · by_cases h : offset ≤ f ∧ f < offset + n
    · rw [if_pos ⟨hc, h⟩, if_pos h]
    · rw [if_neg (by tauto), if_neg h]
  · rw [if_neg (by tauto), sample?_eq_none p c f (by tauto)]
    simp

/-- The impulse response padded with zeros. -/
noncomputable def padded (h : ℕ → ℝ) (k n : ℕ) : List ℂ :=
  (List.range n).map (fun i : ℕ => if i < k then (h i : ℂ) else 0)

theorem padded_get (h : ℕ → ℝ) (k n i : ℕ) (hk : k ≤ n) :
    (padded h k n).getD i 0 = if i < k then (h i : ℂ) else 0 := by
  rw [List.getD_eq_getElem?_getD, padded, List.getElem?_map]
  by_cases hi : i < n
  · rw [List.getElem?_range hi]
    rfl
  · rw [List.getElem?_eq_none (by simp; omega), if_neg (by omega)]
    rfl

/-- The processor at time `t` of the signals. -/
def AtTime (channels : ℕ) (h : ℕ → ℕ → ℝ) (k : ℕ) (g : ℕ → ℕ → ℝ) (maximum t : ℕ) (c : Convolver) : Prop :=
  k + maximum ≤ c.length + 1 ∧ maximum ≤ c.length ∧ 0 < maximum ∧ c.maximum = maximum ∧
  c.impulse = (List.range channels).map (fun i => fft c.length (padded (h i) k c.length)) ∧
  c.input = (List.range channels).map (fun i => past (g i) c.length t)

/-- What the transforms give at the end of the buffer. -/
theorem convolution_at (h : ℕ → ℝ) (x : ℕ → ℝ) (k n m t f : ℕ) (hn : k + m ≤ n + 1) (hf : f < m) (hk : k ≤ n) (hm : m ≤ n) :
    ((n : ℂ) * ∑ i ∈ Finset.range k, (padded h k n).getD i 0 * (past x n (t + m)).getD (n - m + f - i) 0).re * (1 / n) =
      convolved h k x (t + f) := by
  have e : ∑ i ∈ Finset.range k, (padded h k n).getD i 0 * (past x n (t + m)).getD (n - m + f - i) 0 =
      ((convolved h k x (t + f) : ℝ) : ℂ) := by
    unfold convolved
    rw [Complex.ofReal_sum]
    refine Finset.sum_congr rfl fun i hi => ?_
    have hi' := Finset.mem_range.mp hi
    rw [padded_get h k n i hk, if_pos hi', past_get x n _ _ (by omega)]
    by_cases h1 : i ≤ t + f
    · rw [if_pos (by omega), if_pos h1, Complex.ofReal_mul, show t + m + (n - m + f - i) - n = t + f - i by omega]
    · rw [if_neg (by omega), if_neg h1]
      simp
  rw [e]
  have hn0 : (n : ℝ) ≠ 0 := by
    have : 0 < n := by omega
    exact_mod_cast this.ne'
  rw [← Complex.ofReal_natCast, ← Complex.ofReal_mul, Complex.ofReal_re]
  field_simp

theorem round_ok (channels : ℕ) (h : ℕ → ℕ → ℝ) (k : ℕ) (g : Signals) (maximum t : ℕ) (b : ConvBlock)
    (hb : b.Carries channels g t) (al : ℕ → ℕ × ℕ × ℕ) (offset : ℕ) (ho : offset < b.output.frameCount) (c : Convolver)
    (hc : AtTime channels h k g.x maximum (t + offset) c) (p : Buf ℝ) (hp : b.output.SameShape p) (hw : p.WF)
    (hm : p.Writable) :
    ∃ c' p', round al b.input b.wet b.dry (c, p) offset = .ok (c', p') ∧
      AtTime channels h k g.x maximum (t + min (offset + maximum) b.output.frameCount) c' ∧ p.SameShape p' ∧ p'.WF ∧
      p'.Writable ∧
      ∀ ch f, ch < channels → p'.sample? ch f =
        if offset ≤ f ∧ f < min (offset + maximum) b.output.frameCount then
          (p.sample? ch f).map (fun before => before + g.x ch (t + f) * g.dry (t + f) +
            convolved (h ch) k (g.x ch) (t + f) * g.wet (t + f))
        else p.sample? ch f := by
  obtain ⟨b1, b2, b3, b4, b5, b6, b7, b8, b9⟩ := hb
  obtain ⟨a1, a2, a3, a4, a5, a6⟩ := hc
  have hpc := hp.channelCount
  have hpf := hp.frameCount
  obtain ⟨m, hmdef⟩ : ∃ m, m = min maximum (b.input.frameCount - offset) := ⟨_, rfl⟩
  have hm0 : 0 < m := by omega
  have hend : min (offset + maximum) b.output.frameCount = offset + m := by omega
  rw [hend]
  unfold round
  simp only [a4]
  rw [← hmdef, sliceRange_ok (by omega) (by omega), sliceRange_ok (by omega) (by omega),
    Processor.sliceFrames_ok b.input offset m false (by omega), Processor.sliceFrames_ok p offset m true (by omega)]
  simp only [step_ok]
  have hiw := Processor.slice_wf b1 offset m false (by omega)
  have hcons := consume_ok g.x c.length (t + offset) channels _ hiw b4
    (by show m ≤ _; omega) (by
      intro ch hch f hf
      simp only [frameCount] at hf
      rw [Processor.slice_sample offset m false ch f hf, (b9 (offset + f) (by omega)).1 ch hch, Nat.add_assoc]) c a6
  rw [hcons]
  simp only [step_ok, frameCount]
  -- the dry part
  have hdry : ∀ ch < p.channelCount, ∃ data, (Buf.slice b.input ⟨0, offset, b.input.channelCount, m⟩ false).channelData
      (Loc.ofChannel ch) = .ok data ∧ data.length = m ∧ ∀ f < m, data[f]? = some (g.x ch (t + (offset + f))) := by
    intro ch hch
    obtain ⟨data, d1, d2, d3⟩ := channelData_spec _ hiw (Loc.ofChannel ch) (by show ch < b.input.channelCount; omega)
      (Nat.zero_le _)
    simp only [Loc.ofChannel, Nat.sub_zero, Nat.zero_add] at d2 d3
    refine ⟨data, d1, d2, fun f hf => ?_⟩
    rw [d3, Processor.slice_sample offset m false ch f hf, (b9 (offset + f) (by omega)).1 ch (by omega)]
  have hdl : ((b.dry.drop offset).take (offset + m - offset)).length = m := by simp; omega
  have hwl : ((b.wet.drop offset).take (offset + m - offset)).length = m := by simp; omega
  have hdg : ∀ f < m, ((b.dry.drop offset).take (offset + m - offset))[f]? = some (g.dry (t + (offset + f))) := by
    intro f hf
    rw [slice_get?, if_pos (by omega), (b9 (offset + f) (by omega)).2.2]
  have hwg : ∀ f < m, ((b.wet.drop offset).take (offset + m - offset))[f]? = some (g.wet (t + (offset + f))) := by
    intro f hf
    rw [slice_get?, if_pos (by omega), (b9 (offset + f) (by omega)).2.1]
  generalize (b.dry.drop offset).take (offset + m - offset) = dry at *
  generalize (b.wet.drop offset).take (offset + m - offset) = wet at *
  have gof : ∀ {l : List ℝ} {i : ℕ} {v : ℝ} (hi : i < l.length), l[i]? = some v → l[i] = v := by
    intro l i v hi hv
    rwa [List.getElem?_eq_getElem hi, Option.some_inj] at hv
  choose! data hd1 hd2 hd3 using hdry
  obtain ⟨p1, e1, e2, e3, e4, e5⟩ := slice_loop p hw hm offset m (by omega)
    (fun (output : Buf ℝ) channel => do
      let data ← (Buf.slice b.input ⟨0, offset, b.input.channelCount, m⟩ false).channelData (Loc.ofChannel channel)
      output.modifyChannel (Loc.ofChannel channel) (fun out =>
        .ok (Kernels.mixIntoWithGains (al channel).1 (al channel).2.1 (al channel).2.2 data out dry)))
    (fun ch out => .ok (Kernels.mixIntoWithGains (al ch).1 (al ch).2.1 (al ch).2.2 (data ch) out dry))
    (fun ch f before => before + g.x ch (t + (offset + f)) * g.dry (t + (offset + f)))
    (fun ch hch b => by simp only [hd1 ch hch, step_ok]) (by
      intro ch hch d hd
      refine ⟨_, rfl, ?_, fun f hf => ?_⟩
      · rw [Kernels.mixIntoWithGains, Kernels.kernel3_eq _ _ _ _ _ _ _ (by rw [hd2 ch hch, hd]) (by rw [hd2 ch hch, hdl]),
          Kernels.length_zipInto3, hd]
      · rw [Kernels.mixIntoWithGains, Kernels.kernel3_eq _ _ _ _ _ _ _ (by rw [hd2 ch hch, hd]) (by rw [hd2 ch hch, hdl]),
          Kernels.zipInto3_get _ _ _ _ (by rw [hd2 ch hch, hd]) (by rw [hd2 ch hch, hdl]) f (by omega),
          gof (by rw [hd2 ch hch]; exact hf) (hd3 ch hch f hf), gof (by rw [hdl]; exact hf) (hdg f hf),
          List.getElem?_eq_getElem (by omega)]
        rfl)
  have hcc1 := e2.channelCount
  have hfc1 := e2.frameCount
  have hcopy : copyDry al (Buf.slice b.input ⟨0, offset, b.input.channelCount, m⟩ false)
      (Buf.slice p ⟨0, offset, p.channelCount, m⟩ true) dry = .ok (.slice p1 ⟨0, offset, p1.channelCount, m⟩ true) := e1
  rw [hcopy]
  simp only [step_ok]
  -- the wet part
  set c' : Convolver := { c with input := (List.range channels).map (fun i => past (g.x i) c.length (t + offset + m)) } with hc'
  have htr : ∀ ch < channels, c'.transformed[ch]? = some (ifft c.length (List.zipWith (· * ·)
      (fft c.length (past (g.x ch) c.length (t + offset + m))) (fft c.length (padded (h ch) k c.length)))) := by
    intro ch hch
    unfold transformed
    rw [List.getElem?_zipWith]
    simp only [hc', a5, List.getElem?_map, List.getElem?_range hch, Option.map_some]
  obtain ⟨p2, u1, u2, u3, u4, u5⟩ := slice_loop p1 e3 e4 offset m (by omega)
    (fun (output : Buf ℝ) channel =>
      output.modifyChannel (Loc.ofChannel channel) (addProcessed c'.transformed (1 / c'.length) wet channel))
    (addProcessed c'.transformed (1 / c'.length) wet)
    (fun ch f before => before + convolved (h ch) k (g.x ch) (t + (offset + f)) * g.wet (t + (offset + f)))
    (fun ch _ b => rfl) (by
      intro ch hch d hd
      have hT := htr ch (by omega)
      generalize hT' : ifft c.length (List.zipWith (· * ·) (fft c.length (past (g.x ch) c.length (t + offset + m)))
        (fft c.length (padded (h ch) k c.length))) = T at hT
      have hTl : T.length = c.length := by rw [← hT', ifft_length]
      have hpart : ((T.drop (T.length - d.length)).take (T.length - (T.length - d.length))).length = m := by simp; omega
      refine ⟨Kernels.zipInto3 (fun (z : ℂ) out wet => out + z.re * (1 / c.length) * wet)
        ((T.drop (T.length - d.length)).take (T.length - (T.length - d.length))) d wet, ?_, ?_, ?_⟩
      · unfold addProcessed
        rw [index_of_get? hT]
        simp only [step_ok]
        rw [if_pos (by omega), sliceRange_ok (by omega) le_rfl]
        rfl
      · rw [Kernels.length_zipInto3, hd]
      · intro f hf
        rw [Kernels.zipInto3_get _ _ _ _ (by omega) (by omega) f (by omega), gof (by rw [hwl]; exact hf) (hwg f hf),
          List.getElem?_eq_getElem (by omega)]
        have hz : ((T.drop (T.length - d.length)).take (T.length - (T.length - d.length)))[f]? =
            some ((c.length : ℂ) * ∑ i ∈ Finset.range k, (padded (h ch) k c.length).getD i 0 *
              (past (g.x ch) c.length (t + offset + m)).getD (c.length - m + f - i) 0) := by
          rw [slice_get?, if_pos (by omega), hTl, hd, ← hT']
          exact transform_get _ k _ _ _ (by omega) (by omega) (fun i hi => by
            rw [padded_get _ _ _ _ (by omega), if_neg (by omega)])
        have hz' := hz
        rw [List.getElem?_eq_getElem (by omega), Option.some_inj] at hz'
        rw [hz']
        simp only [Option.map_some]
        rw [convolution_at (h ch) (g.x ch) k c.length m (t + offset) f (by omega) hf (by omega) (by omega), Nat.add_assoc])
  have hprocessed : copyProcessed c'.transformed (1 / c'.length) (.slice p1 ⟨0, offset, p1.channelCount, m⟩ true) wet =
      .ok (.slice p2 ⟨0, offset, p2.channelCount, m⟩ true) := u1
  refine ⟨c', p2, ?_, ⟨a1, a2, a3, a4, a5, ?_⟩, e2.trans u2, u3, u4, ?_⟩
  · have : ((1 : ℝ) / (c.length : ℝ)) = 1 / (c'.length : ℝ) := rfl
    rw [this, hprocessed]
    rfl
  · show (List.range channels).map _ = _
    rw [Nat.add_assoc]
  · intro ch f hch
    rw [u5, e5]
    by_cases hr : offset ≤ f ∧ f < offset + m
    · rw [if_pos hr, if_pos hr, if_pos hr, Option.map_map, Nat.add_sub_cancel' hr.1]
      rfl
    · rw [if_neg hr, if_neg hr, if_neg hr]

theorem process_ok (channels : ℕ) (h : ℕ → ℕ → ℝ) (k : ℕ) (g : Signals) (maximum t : ℕ) (b : ConvBlock)
    (hb : b.Carries channels g t) (c : Convolver) (hc : AtTime channels h k g.x maximum t c) :
    ∃ c' o, c.process b.al b.input b.output b.wet b.dry = .ok (c', o) ∧
      AtTime channels h k g.x maximum (t + b.output.frameCount) c' ∧ b.output.SameShape o ∧
      ∀ ch < channels, ∀ f < b.output.frameCount, o.sample? ch f = (b.output.sample? ch f).map
        (fun before => before + g.x ch (t + f) * g.dry (t + f) + convolved (h ch) k (g.x ch) (t + f) * g.wet (t + f)) := by
  have hb' := hb
  obtain ⟨b1, b2, b3, b4, b5, b6, b7, b8, b9⟩ := hb
  have hmax : 0 < maximum := hc.2.2.1
  have hcm : c.maximum = maximum := hc.2.2.2.1
  have key : ∀ n ≤ (b.input.frameCount + maximum - 1) / maximum, ∃ c' p,
      (List.range n).foldlM (fun s i => round (b.al i) b.input b.wet b.dry s (i * c.maximum)) (c, b.output) = .ok (c', p) ∧
      AtTime channels h k g.x maximum (t + min (n * maximum) b.output.frameCount) c' ∧ b.output.SameShape p ∧ p.WF ∧
      p.Writable ∧ ∀ ch f, ch < channels → p.sample? ch f =
        if f < min (n * maximum) b.output.frameCount then
          (b.output.sample? ch f).map (fun before => before + g.x ch (t + f) * g.dry (t + f) +
            convolved (h ch) k (g.x ch) (t + f) * g.wet (t + f))
        else b.output.sample? ch f := by
    intro n hn
    induction n with
    | zero =>
      refine ⟨c, b.output, rfl, ?_, SameShape.refl _, b2, b3, fun ch f _ => by rw [if_neg (by omega)]⟩
      rw [Nat.zero_mul, Nat.zero_min]
      exact hc
    | succ n ih =>
      obtain ⟨c1, p, e1, e2, e3, e4, e5, e6⟩ := ih (by omega)
      have hlt : n * maximum < b.output.frameCount := by
        have h1 : (n + 1) * maximum ≤ b.input.frameCount + maximum - 1 :=
          (Nat.le_div_iff_mul_le hmax).mp hn
        have h2 : (n + 1) * maximum = n * maximum + maximum := Nat.succ_mul ..
        omega
      rw [Nat.min_eq_left hlt.le] at e2 e6
      obtain ⟨c2, p2, u1, u2, u3, u4, u5, u6⟩ := round_ok channels h k g maximum t b hb' (b.al n) (n * maximum) hlt c1 e2 p e3 e4 e5
      have h2 : (n + 1) * maximum = n * maximum + maximum := Nat.succ_mul ..
      rw [← h2] at u2 u6
      refine ⟨c2, p2, ?_, u2, e3.trans u3, u4, u5, ?_⟩
      · rw [List.range_succ, List.foldlM_append, e1]
        simp only [step_ok, List.foldlM_cons, List.foldlM_nil]
        rw [hcm, u1]
        rfl
      · intro ch f hch
        rw [u6 ch f hch, e6 ch f hch]
        by_cases h1 : f < n * maximum
        · rw [if_neg (by omega), if_pos h1, if_pos (by omega)]
        · rw [if_neg h1]
          by_cases h3 : f < min ((n + 1) * maximum) b.output.frameCount
          · rw [if_pos ⟨by omega, h3⟩, if_pos h3]
          · rw [if_neg (by tauto), if_neg h3]
  obtain ⟨c', p, e1, e2, e3, e4, e5, e6⟩ := key _ le_rfl
  have hall : b.output.frameCount ≤ (b.input.frameCount + maximum - 1) / maximum * maximum := by
    have := Nat.lt_div_mul_add hmax (a := b.input.frameCount + maximum - 1)
    omega
  rw [Nat.min_eq_right hall] at e2 e6
  refine ⟨c', p, ?_, e2, e3, fun ch hch f hf => by rw [e6 ch f hch, if_pos hf]⟩
  unfold process
  rw [if_neg (by omega), hcm]
  rw [hcm] at e1
  exact e1

theorem mapM_range_ok {A : Type} (n : ℕ) (g : ℕ → Res A) (v : ℕ → A) (h : ∀ i < n, g i = .ok (v i)) :
    (List.range n).mapM g = .ok ((List.range n).map v) := by
  induction n with
  | zero => rfl
  | succ n ih =>
    rw [List.range_succ, List.mapM_append, ih (fun i hi => h i (by omega))]
    simp only [step_ok, List.mapM_cons, List.mapM_nil, h n (by omega), List.map_append, List.map_cons, List.map_nil]
    rfl

theorem new_ok (impulse : Buf ℝ) (hw : impulse.WF) (maximum : ℕ) (hmax : 0 < maximum) (hk : 0 < impulse.frameCount ∨ maximum ≤ nextPowerOfTwo (maximum - 1)) (h : ℕ → ℕ → ℝ) (g : ℕ → ℕ → ℝ)
    (hi : ∀ c < impulse.channelCount, ∀ f < impulse.frameCount, impulse.sample? c f = some (h c f)) :
    ∃ c, new impulse maximum = .ok c ∧ AtTime impulse.channelCount h impulse.frameCount g maximum 0 c := by
  obtain ⟨n, hn⟩ : ∃ n, n = nextPowerOfTwo (impulse.frameCount + maximum - 1) := ⟨_, rfl⟩
  have hle : impulse.frameCount + maximum - 1 ≤ n := by
    rw [hn]
    exact Nat.le_pow_clog (by norm_num) _
  have hn1 : maximum ≤ n := by
    rcases hk with hk | hk
    · omega
    · refine hk.trans ?_
      rw [hn]
      exact Nat.pow_le_pow_right (by norm_num) (Nat.clog_mono_right 2 (by omega))
  have hch : ∀ c < impulse.channelCount, impulseChannel impulse n c = .ok (fft n (padded (h c) impulse.frameCount n)) := by
    intro c hc
    obtain ⟨data, d1, d2, d3⟩ := channelData_spec impulse hw (Loc.ofChannel c) hc (Nat.zero_le _)
    simp only [Loc.ofChannel, Nat.sub_zero, Nat.zero_add] at d2 d3
    unfold impulseChannel
    rw [d1]
    show Except.ok _ = _
    congr 2
    apply List.ext_getElem?
    intro i
    by_cases hin : i < n
    · rw [List.getElem?_take, if_pos hin, padded, List.getElem?_map, List.getElem?_range hin]
      by_cases hik : i < impulse.frameCount
      · rw [List.getElem?_append_left (by rw [List.length_map, d2]; exact hik), List.getElem?_map, d3, hi c hc i hik]
        simp [hik]
      · rw [List.getElem?_append_right (by rw [List.length_map, d2]; omega), List.length_map, d2, List.getElem?_replicate,
          if_pos (by omega)]
        simp [hik]
    · rw [List.getElem?_eq_none (by simp; omega), List.getElem?_eq_none (by simp [padded]; omega)]
  refine ⟨⟨n, (List.range impulse.channelCount).map (fun c => fft n (padded (h c) impulse.frameCount n)),
    List.replicate impulse.channelCount (List.replicate n 0), maximum⟩, ?_, ⟨by simp only; omega, hn1, hmax, rfl, rfl, ?_⟩⟩
  · unfold new
    rw [if_neg (by omega)]
    simp only
    rw [← hn, mapM_range_ok _ _ _ hch]
    rfl
  · have hz : ∀ c, past (g c) n 0 = List.replicate n 0 := by
      intro c
      apply List.ext_getElem
      · simp [past]
      · intro i h1 h2
        simp only [past, List.getElem_map, List.getElem_range, List.getElem_replicate]
        rw [if_neg]
        simp [past] at h1
        omega
    simp only [hz]
    apply List.ext_getElem
    · simp
    · intro i h1 h2
      simp

end Convolver
end Rawdio
