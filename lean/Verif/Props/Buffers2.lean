import Mathlib.Algebra.Ring.Int.Defs
import Verif.Lemmas.Buffer3

/-!
# Properties of audio buffers (C31, C33, C36)
-/

namespace Rawdio
namespace Buf

variable {S : Type}

/-- A 2 channel, 3 frame buffer with distinct samples, used by the examples. -/
def demo2 : Buf Int := .owned [1, 2, 3, 4, 5, 6] 2 3 44100

/-! ## C31 -/

/-- The full claim for `fill_from_interleaved`: each channel present in both gets its own samples of
the interleaved data. -/
def FillFromInterleavedCorrect (S : Type) : Prop :=
  ∀ (b : Buf S) (data : List S) (cc fc : Nat), b.WF → b.Writable → data.length = cc * fc →
    ∃ b', b.fillFromInterleaved data cc fc = .ok b' ∧
      ∀ c f, c < cc → c < b.channelCount → f < fc → f < b.frameCount →
        b'.sample? c f = data[f * cc + c]?

/-- C31 is violated: filling a mono buffer from stereo data uses stride 1 and mixes the channels
up (the mono channel gets left 0, right 0 instead of left 0, left 1). -/
theorem C31_fill_from_interleaved_violated : ¬ FillFromInterleavedCorrect Int := by
  intro h
  obtain ⟨b', hb', hs⟩ := h (new 2 1 44100) [1, 2, 3, 4] 2 2 (new_wf ..) trivial rfl
  have h1 : (new 2 1 44100 : Buf Int).fillFromInterleaved [1, 2, 3, 4] 2 2
      = .ok (.owned [1, 2] 1 2 44100) := rfl
  rw [h1] at hb'
  injection hb' with hb'
  subst hb'
  have h2 := hs 0 1 (by decide) (by decide) (by decide) (by decide)
  simp [sample?] at h2

/-- C31, partial: correct whenever the buffer has at least as many channels as the interleaved data;
the other channels and frames are untouched.  Missing: fewer channels
(see `C31_fill_from_interleaved_violated`). -/
theorem C31_fill_from_interleaved_partial (b : Buf S) (hw : b.WF) (hm : b.Writable)
    (data : List S) (cc fc : Nat) (hcc : cc ≤ b.channelCount) (hlen : data.length = cc * fc) :
    ∃ b', b.fillFromInterleaved data cc fc = .ok b' ∧ b.SameShape b' ∧
      (∀ c f, c < cc → f < fc → f < b.frameCount → b'.sample? c f = data[f * cc + c]?) ∧
      (∀ c f, cc ≤ c ∨ fc ≤ f → b'.sample? c f = b.sample? c f) := by
  obtain ⟨b', h1, h2, _, _, h3⟩ := fillFromInterleaved_spec b hw hm data cc fc hcc
    (by rw [hlen]; exact Nat.mul_le_mul_left _ (Nat.min_le_left ..))
  refine ⟨b', h1, h2, ?_, ?_⟩
  · intro c f hc hf hf'
    rw [h3, if_pos ⟨hc, by omega⟩]
  · intro c f h
    rw [h3, if_neg (by omega)]

example : demo2.WF ∧ demo2.Writable ∧ 2 ≤ demo2.channelCount := ⟨rfl, trivial, by decide⟩

/-- The full claim for `copy_to_interleaved`. -/
def CopyToInterleavedCorrect (S : Type) : Prop :=
  ∀ (b : Buf S) (out : List S) (cc fc : Nat), b.WF → out.length = cc * fc →
    ∃ out', b.copyToInterleaved out cc fc = .ok out' ∧
      ∀ c f, c < cc → c < b.channelCount → f < fc → f < b.frameCount →
        out'[f * cc + c]? = b.sample? c f

/-- C31 is violated in the other direction too: a mono buffer copied to a stereo interleaved buffer
ends up in consecutive positions. -/
theorem C31_copy_to_interleaved_violated : ¬ CopyToInterleavedCorrect Int := by
  intro h
  obtain ⟨o, ho, hs⟩ := h (.owned [1, 2] 1 2 44100) [0, 0, 0, 0] 2 2 rfl rfl
  have h1 : (.owned [1, 2] 1 2 44100 : Buf Int).copyToInterleaved [0, 0, 0, 0] 2 2
      = .ok [1, 2, 0, 0] := rfl
  rw [h1] at ho
  injection ho with ho
  subst ho
  have h2 := hs 0 1 (by decide) (by decide) (by decide) (by decide)
  simp [sample?] at h2

/-- C31, partial: correct whenever the buffer has at least as many channels as the interleaved data;
other positions are untouched. -/
theorem C31_copy_to_interleaved_partial (b : Buf S) (hw : b.WF) (out : List S) (cc fc : Nat)
    (hcc : cc ≤ b.channelCount) (hlen : out.length = cc * fc) :
    ∃ out', b.copyToInterleaved out cc fc = .ok out' ∧ out'.length = out.length ∧
      (∀ c f, c < cc → f < fc → f < b.frameCount → out'[f * cc + c]? = b.sample? c f) ∧
      (∀ c f, c < cc → b.frameCount ≤ f → out'[f * cc + c]? = out[f * cc + c]?) := by
  obtain ⟨o, h1, h2, h3⟩ := copyToInterleaved_spec b hw out cc fc hcc
    (by rw [hlen]; exact Nat.mul_le_mul_left _ (Nat.min_le_left ..))
  refine ⟨o, h1, h2, ?_, ?_⟩
  · intro c f hc hf hf'
    rw [h3, strided_div hc, strided_mod hc, if_pos ⟨by omega, by omega⟩]
  · intro c f hc hf
    rw [h3, strided_div hc, if_neg (by omega)]

/-- C31: filling a buffer and reading it back gives the interleaved data, when the channel counts
agree. -/
theorem C31_interleaved_round_trip (b : Buf S) (hw : b.WF) (hm : b.Writable) (data out : List S)
    (hlen : data.length = b.channelCount * b.frameCount) (hout : out.length = data.length) :
    ∃ b', b.fillFromInterleaved data b.channelCount b.frameCount = .ok b' ∧
      b'.copyToInterleaved out b.channelCount b.frameCount = .ok data := by
  obtain ⟨b', h1, h2, h3, h4, h5⟩ := fillFromInterleaved_spec b hw hm data b.channelCount
    b.frameCount le_rfl (by rw [hlen, Nat.min_self])
  obtain ⟨o, g1, g2, g3⟩ := copyToInterleaved_spec b' h3 out b.channelCount b.frameCount
    (by rw [← h2.channelCount]) (by rw [← h2.frameCount, Nat.min_self]; omega)
  refine ⟨b', h1, ?_⟩
  rw [g1]
  congr 1
  apply List.ext_getElem?
  intro j
  rw [g3, ← h2.frameCount, Nat.min_self]
  by_cases hj : j < data.length
  · have hcpos : 0 < b.channelCount := by
      rcases Nat.eq_zero_or_pos b.channelCount with h | h
      · rw [h, Nat.zero_mul] at hlen; omega
      · exact h
    have hdiv : j / b.channelCount < b.frameCount := by
      rw [Nat.div_lt_iff_lt_mul hcpos, Nat.mul_comm]; omega
    rw [if_pos ⟨hcpos, hdiv⟩, h5, Nat.min_self, if_pos ⟨Nat.mod_lt _ hcpos, hdiv⟩]
    congr 1
    rw [Nat.mul_comm]; exact Nat.div_add_mod j _
  · rw [List.getElem?_eq_none (l := data) (by omega)]
    split_ifs with hcond
    · exfalso
      have := hcond.2
      rw [Nat.div_lt_iff_lt_mul hcond.1, Nat.mul_comm] at this
      omega
    · exact List.getElem?_eq_none (by omega)

example : ∃ b', demo2.fillFromInterleaved [1, 4, 2, 5, 3, 6] 2 3 = .ok b' ∧
    b'.copyToInterleaved [0, 0, 0, 0, 0, 0] 2 3 = .ok [1, 4, 2, 5, 3, 6] := ⟨_, rfl, rfl⟩

/-! ## C33 -/

/-- C33: `from_buffer` copies any buffer or slice exactly. -/
theorem C33_from_buffer [Zero S] (b : Buf S) (hw : b.WF) :
    ∃ b', b.fromBuffer = .ok b' ∧ b'.WF ∧ b'.channelCount = b.channelCount ∧
      b'.frameCount = b.frameCount ∧ b'.sampleRate = b.sampleRate ∧
      ∀ c f, b'.sample? c f = b.sample? c f := by
  obtain ⟨b', h1, h2, h3, _, h5⟩ := copyFrom_spec
    (new b.frameCount b.channelCount b.sampleRate) b (new_wf ..) trivial hw Loc.origin Loc.origin
    b.channelCount b.frameCount (by simp [Loc.origin]) (by simp [Loc.origin])
    (by simp [Loc.origin, new, channelCount]) (by simp [Loc.origin, new, frameCount])
  refine ⟨b', h1, h3, h2.channelCount.symm, h2.frameCount.symm, h2.sampleRate.symm, ?_⟩
  intro c f
  rw [h5]
  simp only [Loc.origin, Nat.zero_add, Nat.sub_zero, Nat.zero_le, true_and]
  split_ifs with h
  · rfl
  · rw [new_sample?, if_neg h, sample?_eq_none b c f h]

/-- C33: `extended_with_buffer` appends the second buffer to each channel of the first. -/
theorem C33_extended_with_buffer [Zero S] (a b : Buf S) (ha : a.WF) (hb : b.WF)
    (hc : b.channelCount = a.channelCount) (hr : b.sampleRate = a.sampleRate) :
    ∃ e, a.extendedWithBuffer b = .ok e ∧ e.WF ∧ e.channelCount = a.channelCount ∧
      e.frameCount = a.frameCount + b.frameCount ∧ e.sampleRate = a.sampleRate ∧
      ∀ c f, e.sample? c f =
        if f < a.frameCount then a.sample? c f else b.sample? c (f - a.frameCount) := by
  obtain ⟨n1, h1, s1, w1, m1, g1⟩ := copyFrom_spec
    (new (a.frameCount + b.frameCount) a.channelCount a.sampleRate) a (new_wf ..) trivial ha
    Loc.origin Loc.origin a.channelCount a.frameCount
    (by simp [Loc.origin]) (by simp [Loc.origin])
    (by simp [Loc.origin, new, channelCount]) (by simp [Loc.origin, new, frameCount])
  have c1 : n1.channelCount = a.channelCount := s1.channelCount.symm
  have f1 : n1.frameCount = a.frameCount + b.frameCount := s1.frameCount.symm
  obtain ⟨n2, h2, s2, w2, m2, g2⟩ := copyFrom_spec n1 b w1 m1 hb
    Loc.origin (Loc.ofFrame a.frameCount) b.channelCount b.frameCount
    (by simp [Loc.origin]) (by simp [Loc.origin])
    (by simp [Loc.ofFrame, c1, hc]) (by simp [Loc.ofFrame, f1])
  refine ⟨n2, ?_, w2, ?_, ?_, ?_, ?_⟩
  · simp only [extendedWithBuffer, hc, hr, and_self, if_true, h1, bind, Except.bind]
    rw [← hc]; exact h2
  · rw [← s2.channelCount, c1]
  · rw [← s2.frameCount, f1]
  · rw [← s2.sampleRate, ← s1.sampleRate]; rfl
  · intro c f
    rw [g2, g1]
    simp only [Loc.origin, Loc.ofFrame, Nat.zero_add, Nat.sub_zero, Nat.zero_le, true_and, hc]
    rw [new_sample?]
    by_cases hcc : c < a.channelCount
    · by_cases hf : f < a.frameCount
      · rw [if_neg (by omega), if_pos ⟨hcc, hf⟩, if_pos hf]
      · rw [if_neg hf]
        by_cases hf2 : f < a.frameCount + b.frameCount
        · rw [if_pos (by omega)]
        · rw [if_neg (by omega), if_neg (by omega), if_neg (by omega),
            sample?_eq_none b c _ (by omega)]
    · rw [if_neg (by omega), if_neg (by omega), if_neg (by omega)]
      split_ifs
      · rw [sample?_eq_none a c f (by omega)]
      · rw [sample?_eq_none b c _ (by omega)]

example : ∃ e, demo2.extendedWithBuffer demo2 = .ok e ∧ e.sample? 1 4 = some 5 := ⟨_, rfl, rfl⟩

/-- C33: `extended_with_buffer` panics when the channel counts or sample rates differ. -/
theorem C33_extended_mismatch_aborts [Zero S] (a b : Buf S)
    (h : b.channelCount ≠ a.channelCount ∨ b.sampleRate ≠ a.sampleRate) :
    a.extendedWithBuffer b = .error .panic := by
  have : ¬ (b.channelCount = a.channelCount ∧ b.sampleRate = a.sampleRate) := by
    rintro ⟨h1, h2⟩; rcases h with h | h <;> contradiction
  simp only [extendedWithBuffer, this, if_false]

example : (new 1 1 44100 : Buf Int).channelCount ≠ demo2.channelCount := by decide

/-- C33: `padded_to_length` keeps the audio and adds zeros, when the new length is not shorter. -/
theorem C33_padded_to_length [Zero S] (b : Buf S) (hw : b.WF) (n : Nat) (hn : b.frameCount ≤ n) :
    ∃ b', b.paddedToLength n = .ok b' ∧ b'.frameCount = n ∧ b'.channelCount = b.channelCount ∧
      ∀ c f, c < b.channelCount → f < n →
        b'.sample? c f = if f < b.frameCount then b.sample? c f else some 0 := by
  obtain ⟨b', h1, h2, h3, _, h5⟩ := copyFrom_spec
    (new n b.channelCount b.sampleRate) b (new_wf ..) trivial hw Loc.origin Loc.origin
    b.channelCount b.frameCount (by simp [Loc.origin]) (by simp [Loc.origin])
    (by simp [Loc.origin, new, channelCount]) (by simpa [Loc.origin, new, frameCount] using hn)
  refine ⟨b', h1, h2.frameCount.symm, h2.channelCount.symm, ?_⟩
  intro c f hc hf
  rw [h5]
  simp only [Loc.origin, Nat.zero_add, Nat.sub_zero, Nat.zero_le, true_and, hc]
  split_ifs with h
  · rfl
  · rw [new_sample?, if_pos ⟨hc, hf⟩]

example : ∃ b', demo2.paddedToLength 5 = .ok b' ∧ b'.sample? 1 2 = some 6 ∧
    b'.sample? 1 4 = some 0 := ⟨_, rfl, rfl, rfl⟩

/-- C33: for an owned non-empty buffer a shorter length panics (it is neither rejected softly nor
truncated). -/
theorem C33_padded_shorter_aborts [Zero S] (data : List S) (cc fc sr n : Nat)
    (hw : data.length = cc * fc) (hcc : 0 < cc) (hn : n < fc) :
    (owned data cc fc sr).paddedToLength n = .error .panic := by
  cases h : (owned data cc fc sr).paddedToLength n with
  | error e =>
    congr 1
    refine foldlM_error _ _ ?_ h
    intro b c e he
    simp only [bind, Except.bind] at he
    split at he
    · rename_i e' h1; injection he with he; subst he; exact channelData_error h1
    · split at he
      · rename_i e' h1; injection he with he; subst he; exact sliceRange_error h1
      · exact modifyPart_error he
  | ok b' =>
    exfalso
    obtain ⟨_, hall⟩ := foldlM_range_ok cc _ b' h
      (fun b => ∃ d : List S, b = owned d cc n sr ∧ d.length = cc * n)
      ⟨_, rfl, by simp [Nat.mul_comm, channelCount]⟩ (by
        rintro b c b'' ⟨d, rfl, hdl⟩ hb
        simp only [bind, Except.bind] at hb
        split at hb
        · cases hb
        · split at hb
          · cases hb
          · rename_i l1 _ l2 h2
            refine owned_modifyPart_shape hdl ?_ (show 0 < fc by omega) hb
            intro l hl
            simp only [sliceRange] at h2
            split_ifs at h2
            injection h2 with h2
            rw [← h2]
            simp only [List.length_take, List.length_drop, frameCount] at *; omega)
    obtain ⟨b1, b2, ⟨d, rfl, hdl⟩, hb⟩ := hall 0 hcc
    simp only [bind, Except.bind] at hb
    split at hb
    · cases hb
    · split at hb
      · cases hb
      · have e2 := owned_modifyPart_ok hdl (show 0 < fc by omega) hb
        simp only [Loc.offsetChannels, Loc.origin, frameCount] at e2
        omega

example : demo2.paddedToLength 2 = .error .panic := rfl

/-- The full claim for `from_slice`: the data is copied to all channels
(`owned_audio_buffer.rs:28-31`). -/
def FromSliceCorrect (S : Type) [Zero S] : Prop :=
  ∀ (data : List S) (cc sr : Nat), ∃ b, fromSlice data cc sr = .ok b ∧ b.channelCount = cc ∧
    ∀ c f, c < cc → b.sample? c f = data[f]?

/-- C33 is violated: `from_slice` panics for two channels. -/
theorem C33_from_slice_violated : ¬ FromSliceCorrect Int := by
  intro h
  obtain ⟨b, hb, _⟩ := h [1, 2] 2 44100
  have : (fromSlice [1, 2] 2 44100 : Res (Buf Int)) = .error .panic := rfl
  rw [this] at hb; cases hb

/-- C33: `from_slice` with non-empty data panics for every channel count above 1. -/
theorem C33_from_slice_aborts [Zero S] (data : List S) (cc sr : Nat) (hd : 0 < data.length)
    (hcc : 2 ≤ cc) : fromSlice data cc sr = .error .panic := by
  have h0 : (new data.length 1 sr : Buf S).fillFromSlice data (Loc.ofChannel 0) =
      .ok (owned data 1 data.length sr) := by
    simp [new, fillFromSlice, modifyChannel, modifyRange, sliceRange, Loc.ofChannel, bind,
      Except.bind, pure, Except.pure]
  have h1 : (owned data 1 data.length sr : Buf S).fillFromSlice data (Loc.ofChannel 1) =
      .error .panic := by
    have : ¬ (1 + 1) * data.length ≤ data.length := by omega
    simp [fillFromSlice, modifyChannel, modifyRange, sliceRange, Loc.ofChannel, bind, Except.bind,
      this]
  obtain ⟨k, rfl⟩ : ∃ k, cc = 2 + k := ⟨cc - 2, by omega⟩
  unfold fromSlice
  rw [List.range_add, List.foldlM_append]
  have h2 : (List.range 2) = [0, 1] := rfl
  rw [h2]
  simp only [List.foldlM_cons, List.foldlM_nil, bind, Except.bind, h0, h1]

example : 0 < [(1 : Int)].length ∧ 2 ≤ 2 := by decide

/-- C33, partial: `from_slice` is right for one channel.  Missing: more channels
(see `C33_from_slice_aborts`). -/
theorem C33_from_slice_partial [Zero S] (data : List S) (sr : Nat) :
    ∃ b, fromSlice data 1 sr = .ok b ∧ b.channelCount = 1 ∧ b.frameCount = data.length ∧
      ∀ f, b.sample? 0 f = data[f]? := by
  have h0 : (new data.length 1 sr : Buf S).fillFromSlice data (Loc.ofChannel 0) =
      .ok (owned data 1 data.length sr) := by
    simp [new, fillFromSlice, modifyChannel, modifyRange, sliceRange, Loc.ofChannel, bind,
      Except.bind, pure, Except.pure]
  refine ⟨owned data 1 data.length sr, ?_, rfl, rfl, ?_⟩
  · unfold fromSlice
    have h2 : (List.range 1) = [0] := rfl
    rw [h2]
    simp only [List.foldlM_cons, List.foldlM_nil, bind, Except.bind, h0]
    rfl
  · intro f
    simp only [sample?]
    split_ifs with h
    · simp
    · exact (List.getElem?_eq_none (by omega)).symm

example : ∃ b : Buf Int, fromSlice [7, 8] 1 44100 = .ok b ∧ b.sample? 0 1 = some 8 := ⟨_, rfl, rfl⟩

/-- C33: `duplicate_channel` copies the chosen frames of one channel over another and changes nothing
else, through any nesting of mutable slices. -/
theorem C33_duplicate_channel (b : Buf S) (hw : b.WF) (hm : b.Writable) (src : Loc) (dst n : Nat)
    (h1 : src.channel < b.channelCount) (h2 : dst < b.channelCount)
    (h3 : src.frame + n ≤ b.frameCount) :
    ∃ b', b.duplicateChannel src dst n = .ok b' ∧ b.SameShape b' ∧ b'.WF ∧ b'.Writable ∧
      ∀ c f, b'.sample? c f =
        if c = dst ∧ src.frame ≤ f ∧ f < src.frame + n then b.sample? src.channel f
        else b.sample? c f :=
  duplicateChannel_spec b hw hm src dst n h1 h2 h3

example : ∃ b', demo2.duplicateChannel ⟨0, 1⟩ 1 2 = .ok b' ∧ b'.sample? 1 2 = some 3 ∧
    b'.sample? 1 0 = some 4 := ⟨_, rfl, rfl, rfl⟩

/-- C33: `copy_within` moves a range of frames inside each chosen channel (overlap allowed) and
changes nothing else. -/
theorem C33_copy_within (b : Buf S) (hw : b.WF) (hm : b.Writable) (r : Range) (d : Nat)
    (h1 : r.channel + r.channelCount ≤ b.channelCount)
    (h2 : r.frame + r.frameCount ≤ b.frameCount) (h3 : d + r.frameCount ≤ b.frameCount) :
    ∃ b', b.copyWithin r d = .ok b' ∧ b.SameShape b' ∧ b'.WF ∧ b'.Writable ∧
      ∀ c f, b'.sample? c f =
        if r.channel ≤ c ∧ c < r.channel + r.channelCount ∧ d ≤ f ∧ f < d + r.frameCount then
          b.sample? c (r.frame + (f - d))
        else b.sample? c f := by
  unfold copyWithin
  have key : ∀ N, N ≤ r.channelCount → ∃ b', (List.range N).foldlM
      (fun (b : Buf S) c => b.modifyChannel (Loc.ofChannel (r.channel + c))
        (fun data => copyWithinList data r.frame r.frameCount d)) b = .ok b' ∧ b.SameShape b' ∧
      b'.WF ∧ b'.Writable ∧
      ∀ c f, b'.sample? c f =
        if r.channel ≤ c ∧ c < r.channel + N ∧ d ≤ f ∧ f < d + r.frameCount then
          b.sample? c (r.frame + (f - d))
        else b.sample? c f := by
    intro N
    induction N with
    | zero =>
      intro _
      exact ⟨b, rfl, SameShape.refl _, hw, hm, fun c f => by rw [if_neg (by omega)]⟩
    | succ N ih =>
      intro hN
      obtain ⟨b1, e1, hsh, hw1, hm1, hs1⟩ := ih (by omega)
      obtain ⟨l, hl, hll, hget⟩ := channelData_spec b1 hw1 (Loc.ofChannel (r.channel + N))
        (by rw [← hsh.channelCount]; simp only [Loc.ofChannel]; omega)
        (by simp [Loc.ofChannel])
      simp only [Loc.ofChannel, Nat.zero_add, Nat.sub_zero] at hll hget
      have hfc := hsh.frameCount
      obtain ⟨l', hl', hll', hget'⟩ := copyWithinList_ok (l := l) (a := r.frame)
        (n := r.frameCount) (d := d) (by omega) (by omega)
      obtain ⟨b2, e2, hsh2, hw2, hm2, hs2⟩ := modifyChannel_spec b1 hw1 hm1
        (Loc.ofChannel (r.channel + N))
        (by rw [← hsh.channelCount]; simp only [Loc.ofChannel]; omega)
        (by simp [Loc.ofChannel])
        (fun data => copyWithinList data r.frame r.frameCount d) l l' hl hl' hll'
      refine ⟨b2, ?_, hsh.trans hsh2, hw2, hm2, ?_⟩
      · rw [List.range_succ, List.foldlM_append, e1]
        simp only [List.foldlM_cons, List.foldlM_nil, bind, Except.bind]
        rw [e2]; rfl
      · intro c f
        rw [hs2]
        simp only [Loc.ofChannel, Nat.zero_le, true_and, Nat.sub_zero]
        by_cases hc : c = r.channel + N
        · subst hc
          by_cases hf : f < b1.frameCount
          · rw [if_pos ⟨rfl, hf⟩, hget']
            by_cases hfn : d ≤ f ∧ f < d + r.frameCount
            · rw [if_pos hfn, if_pos (by omega), hget, hs1, if_neg (by omega)]
            · rw [if_neg hfn, if_neg (by omega), hget, hs1, if_neg (by omega)]
          · rw [if_neg (by omega), hs1, if_neg (by omega), if_neg (by omega)]
        · rw [if_neg (by omega), hs1]
          by_cases h : r.channel ≤ c ∧ c < r.channel + N ∧ d ≤ f ∧ f < d + r.frameCount
          · rw [if_pos h, if_pos (by omega)]
          · rw [if_neg h, if_neg (by omega)]
  exact key _ le_rfl

example : ∃ b', demo2.copyWithin ⟨0, 1, 2, 2⟩ 0 = .ok b' ∧ b'.sample? 0 0 = some 2 ∧
    b'.sample? 0 1 = some 3 ∧ b'.sample? 0 2 = some 3 := ⟨_, rfl, rfl, rfl, rfl⟩

/-! ## C36 -/

/-- The full claim for `apply_gain_value`: exact tests for 0 and 1, all samples of the range are
multiplied by the gain, nothing else changes. -/
def ApplyGainValueCorrect (S : Type) [MulZeroOneClass S] [DecidableEq S] : Prop :=
  ∀ (al : Nat → Nat) (b : Buf S) (r : Range) (g : S), b.WF → b.Writable →
    r.channel + r.channelCount ≤ b.channelCount → r.frame + r.frameCount ≤ b.frameCount →
    ∃ b', b.applyGainValue (fun x => x = 0) (fun x => x = 1) al r g = .ok b' ∧
      ∀ c f, b'.sample? c f =
        if r.channel ≤ c ∧ c < r.channel + r.channelCount ∧ r.frame ≤ f ∧
          f < r.frame + r.frameCount then (b.sample? c f).map (fun s => s * g)
        else b.sample? c f

/-- C36 is violated: gain 0 clears the first channel only. -/
theorem C36_apply_gain_value_violated : ¬ ApplyGainValueCorrect Int := by
  intro h
  obtain ⟨b', hb', hs⟩ := h (fun _ => 0) demo2 ⟨0, 0, 2, 3⟩ 0 rfl trivial (by decide) (by decide)
  have h1 : demo2.applyGainValue (fun x => x = 0) (fun x => x = 1) (fun _ => 0) ⟨0, 0, 2, 3⟩ 0
      = .ok (.owned [0, 0, 0, 4, 5, 6] 2 3 44100) := rfl
  rw [h1] at hb'
  injection hb' with hb'
  subst hb'
  have h2 := hs 1 0
  simp [sample?, demo2] at h2

/-- C36, partial: correct when the gain is not taken for 0, or there is at most one channel.
Missing: gain 0 on several channels (see `C36_apply_gain_value_violated`).  `isZero` and `isOne` may be
any tests that only accept 0 and 1. -/
theorem C36_apply_gain_value_partial [MulZeroOneClass S] (isZero isOne : S → Bool)
    (hz : ∀ x, isZero x = true → x = 0) (ho : ∀ x, isOne x = true → x = 1) (al : Nat → Nat)
    (b : Buf S) (r : Range) (g : S) (hw : b.WF) (hm : b.Writable)
    (h1 : r.channel + r.channelCount ≤ b.channelCount)
    (h2 : r.frame + r.frameCount ≤ b.frameCount)
    (hpart : isZero g = false ∨ r.channelCount ≤ 1) :
    ∃ b', b.applyGainValue isZero isOne al r g = .ok b' ∧ b.SameShape b' ∧
      ∀ c f, b'.sample? c f =
        if r.channel ≤ c ∧ c < r.channel + r.channelCount ∧ r.frame ≤ f ∧
          f < r.frame + r.frameCount then (b.sample? c f).map (fun s => s * g)
        else b.sample? c f := by
  unfold applyGainValue
  by_cases hzero : isZero g = true
  · have hg := hz g hzero
    subst hg
    rcases hpart with hp | hp
    · rw [hp] at hzero; cases hzero
    · rcases Nat.le_one_iff_eq_zero_or_eq_one.mp hp with h0 | h0
      · rw [h0]
        exact ⟨b, rfl, SameShape.refl _, fun c f => by rw [if_neg (by omega)]⟩
      · rw [h0]
        have : List.range 1 = [0] := rfl
        rw [this]
        simp only [applyGainValueLoop, hzero, if_true, Nat.add_zero]
        obtain ⟨l, hl, hget, b', hb', hsh, _, _, hs⟩ := modifyPart_spec b hw hm
          ⟨r.channel, r.frame⟩ (by simp only; omega) r.frameCount h2
          (fun l => l.map (fun _ => 0)) (by intro l hl; simpa using hl)
        refine ⟨b', hb', hsh, ?_⟩
        intro c f
        rw [hs]
        simp only
        by_cases hc : c = r.channel ∧ r.frame ≤ f ∧ f < r.frame + r.frameCount
        · rw [if_pos hc, if_pos (by omega), List.getElem?_map, hget _ (by omega), hc.1]
          have e : r.frame + (f - r.frame) = f := by omega
          rw [e]
          cases b.sample? r.channel f <;> simp
        · rw [if_neg hc, if_neg (by omega)]
  · by_cases hone : isOne g = true
    · have hg := ho g hone
      subst hg
      have hid : ∀ (b' : Buf S), (∀ c f, b'.sample? c f = b.sample? c f) → ∀ c f, b'.sample? c f =
          if r.channel ≤ c ∧ c < r.channel + r.channelCount ∧ r.frame ≤ f ∧
            f < r.frame + r.frameCount then (b.sample? c f).map (fun s => s * 1)
          else b.sample? c f := by
        intro b' hb' c f
        rw [hb']
        split_ifs
        · cases b.sample? c f <;> simp
        · rfl
      cases hcc : r.channelCount with
      | zero =>
        rw [← hcc]
        refine ⟨b, by rw [hcc]; rfl, SameShape.refl _, hid b (fun _ _ => rfl)⟩
      | succ k =>
        rw [← hcc]
        have : List.range r.channelCount = 0 :: (List.range k).map Nat.succ := by
          rw [hcc]; exact List.range_succ_eq_map
        rw [this]
        simp only [applyGainValueLoop, hzero, hone, if_true]
        obtain ⟨l, hl, hget, b', hb', hsh, _, _, hs⟩ := modifyPart_spec b hw hm
          ⟨r.channel, r.frame⟩ (by simp only; omega) r.frameCount h2 id (by intro l hl; exact hl)
        refine ⟨b', hb', hsh, hid b' ?_⟩
        intro c f
        rw [hs]
        simp only [id]
        split_ifs with hc
        · obtain ⟨hc1, hc2, hc3⟩ := hc
          change r.frame ≤ f at hc2
          change f < r.frame + r.frameCount at hc3
          rw [hget _ (show f - r.frame < r.frameCount by omega), hc1]
          congr 1
          change r.frame + (f - r.frame) = f
          omega
        · rfl
    · -- the loop never returns early: it is the fold over channels
      have hloop : ∀ cs (b' : Buf S), applyGainValueLoop isZero isOne al r g cs b' =
          cs.foldlM (fun (b : Buf S) c => b.modifyPart ⟨r.channel + c, r.frame⟩ r.frameCount
            (fun l => Kernels.multiplyByValue (al c) l g)) b' := by
        intro cs
        induction cs with
        | nil => intro b'; rfl
        | cons c cs ih =>
          intro b'
          simp only [applyGainValueLoop, hzero, hone, if_false, List.foldlM_cons, Bool.false_eq_true]
          simp only [bind, Except.bind]
          split
          · rfl
          · exact ih _
      rw [hloop]
      obtain ⟨b', e1, e2, _, _, e5⟩ := region_spec b hw hm ⟨r.channel, r.frame⟩ r.channelCount
        r.frameCount h1 h2
        (fun (b : Buf S) c => b.modifyPart ⟨r.channel + c, r.frame⟩ r.frameCount
            (fun l => Kernels.multiplyByValue (al c) l g))
        (fun c l => Kernels.multiplyByValue (al c) l g) (fun _ _ o => o.map (fun s => s * g))
        (fun _ _ _ _ => rfl)
        (fun c _ l hl => by rw [Kernels.multiplyByValue_eq]; simpa using hl)
        (fun c _ l hl i hi => by rw [Kernels.multiplyByValue_eq, List.getElem?_map])
      exact ⟨b', e1, e2, e5⟩

example : (3 : Int) ≠ 0 ∧ demo2.WF ∧ (0 + 2 ≤ demo2.channelCount) ∧ (0 + 3 ≤ demo2.frameCount) := by
  refine ⟨by decide, rfl, ?_, ?_⟩ <;> decide

/-- C36: `clear` silences every sample of every channel, through any nesting of mutable slices. -/
theorem C36_clear [Zero S] (b : Buf S) (hw : b.WF) (hm : b.Writable) :
    ∃ b', b.clear = .ok b' ∧ b.SameShape b' ∧ b'.WF ∧ b'.Writable ∧
      ∀ c f, c < b.channelCount → f < b.frameCount → b'.sample? c f = some 0 := by
  unfold clear fillWithValue
  have key : ∀ N, N ≤ b.channelCount → ∃ b', (List.range N).foldlM
      (fun (b : Buf S) c => b.fillChannelWithValue c 0) b = .ok b' ∧ b.SameShape b' ∧
      b'.WF ∧ b'.Writable ∧
      ∀ c f, b'.sample? c f = if c < N ∧ f < b.frameCount then some 0 else b.sample? c f := by
    intro N
    induction N with
    | zero =>
      intro _
      exact ⟨b, rfl, SameShape.refl _, hw, hm, fun c f => by rw [if_neg (by omega)]⟩
    | succ N ih =>
      intro hN
      obtain ⟨b1, e1, hsh, hw1, hm1, hs1⟩ := ih (by omega)
      obtain ⟨l, hl, hll, hget⟩ := channelData_spec b1 hw1 (Loc.ofChannel N)
        (by rw [← hsh.channelCount]; simp only [Loc.ofChannel]; omega)
        (by simp [Loc.ofChannel])
      simp only [Loc.ofChannel, Nat.zero_add, Nat.sub_zero] at hll hget
      obtain ⟨b2, e2, hsh2, hw2, hm2, hs2⟩ := modifyChannel_spec b1 hw1 hm1
        (Loc.ofChannel N)
        (by rw [← hsh.channelCount]; simp only [Loc.ofChannel]; omega)
        (by simp [Loc.ofChannel])
        (fun data => .ok (data.map (fun _ => 0))) l (l.map (fun _ => 0)) hl rfl (by simp)
      refine ⟨b2, ?_, hsh.trans hsh2, hw2, hm2, ?_⟩
      · rw [List.range_succ, List.foldlM_append, e1]
        simp only [List.foldlM_cons, List.foldlM_nil, bind, Except.bind, fillChannelWithValue]
        rw [e2]; rfl
      · intro c f
        rw [hs2]
        have hfc := hsh.frameCount
        simp only [Loc.ofChannel, Nat.zero_le, true_and, Nat.sub_zero]
        by_cases hc : c = N
        · subst hc
          by_cases hf : f < b1.frameCount
          · rw [if_pos ⟨rfl, hf⟩, if_pos (by omega), List.getElem?_map,
              List.getElem?_eq_getElem (by omega)]
            rfl
          · rw [if_neg (by omega), hs1, if_neg (by omega), if_neg (by omega)]
        · rw [if_neg (by omega), hs1]
          by_cases h : c < N ∧ f < b.frameCount
          · rw [if_pos h, if_pos (by omega)]
          · rw [if_neg h, if_neg (by omega)]
  obtain ⟨b', h1, h2, h3, h4, h5⟩ := key _ le_rfl
  exact ⟨b', h1, h2, h3, h4, fun c f hc hf => by rw [h5, if_pos ⟨hc, hf⟩]⟩

example : ∃ b', demo2.clear = .ok b' ∧ b'.sample? 1 2 = some 0 := ⟨_, rfl, rfl⟩

/-- C36: `clear_range` silences the range and changes nothing else. -/
theorem C36_clear_range [Zero S] (b : Buf S) (hw : b.WF) (hm : b.Writable) (r : Range)
    (h1 : r.channel + r.channelCount ≤ b.channelCount) (h2 : r.frame + r.frameCount ≤ b.frameCount) :
    ∃ b', b.clearRange r = .ok b' ∧ b.SameShape b' ∧ b'.WF ∧ b'.Writable ∧
      ∀ c f, b'.sample? c f =
        if r.channel ≤ c ∧ c < r.channel + r.channelCount ∧ r.frame ≤ f ∧ f < r.frame + r.frameCount then some 0
        else b.sample? c f := by
  unfold clearRange
  have key : ∀ N, N ≤ r.channelCount → ∃ b', (List.range N).foldlM (fun (b : Buf S) c =>
        b.modifyPart ⟨r.channel + c, r.frame⟩ r.frameCount (fun l => l.map (fun _ => 0))) b = .ok b' ∧ b.SameShape b' ∧
      b'.WF ∧ b'.Writable ∧ ∀ c f, b'.sample? c f =
        if r.channel ≤ c ∧ c < r.channel + N ∧ r.frame ≤ f ∧ f < r.frame + r.frameCount then some 0
        else b.sample? c f := by
    intro N
    induction N with
    | zero => intro _; exact ⟨b, rfl, SameShape.refl _, hw, hm, fun c f => by rw [if_neg (by omega)]⟩
    | succ N ih =>
      intro hN
      obtain ⟨b1, e1, s1, w1, m1, v1⟩ := ih (by omega)
      obtain ⟨l, hl, _, b2, e2, s2, w2, m2, v2⟩ := modifyPart_spec b1 w1 m1 ⟨r.channel + N, r.frame⟩
        (by rw [← s1.channelCount]; simp only; omega) r.frameCount (by rw [← s1.frameCount]; exact h2)
        (fun l => l.map fun _ => 0) (by simp)
      refine ⟨b2, ?_, s1.trans s2, w2, m2, ?_⟩
      · rw [List.range_succ, List.foldlM_append, e1]
        change (b1.modifyPart _ _ _ >>= pure) = _
        rw [e2]
        rfl
      · intro c f
        rw [v2 c f, v1 c f]
        simp only
        by_cases hc : c = r.channel + N ∧ r.frame ≤ f ∧ f < r.frame + r.frameCount
        · rw [if_pos hc, if_pos (by omega), List.getElem?_map, List.getElem?_eq_getElem (by omega)]
          rfl
        · rw [if_neg hc]
          split_ifs <;> first | rfl | omega
  exact key _ (le_refl _)

example : demo2.clearRange ⟨0, 1, 2, 1⟩ = .ok (.owned [1, 0, 3, 4, 0, 6] 2 3 44100) := rfl

/-- C36: `apply_gain` multiplies frame `f` of every channel by `gain[f]`, for tests that only accept
0 and 1 and every alignment. -/
theorem C36_apply_gain [MulZeroOneClass S] (isZero isOne : S → Bool)
    (hz : ∀ x, isZero x = true → x = 0) (ho : ∀ x, isOne x = true → x = 1)
    (al : Nat → Nat × Nat) (b : Buf S) (gain : List S) (hw : b.WF) (hm : b.Writable)
    (hg : gain.length = b.frameCount) :
    ∃ b', b.applyGain isZero isOne al gain = .ok b' ∧ b.SameShape b' ∧ b'.WF ∧ b'.Writable ∧
      ∀ c f, c < b.channelCount → f < b.frameCount →
        b'.sample? c f = (b.sample? c f).bind (fun s => (gain[f]?).map (fun g => s * g)) := by
  unfold applyGain
  by_cases hall : gain.all isZero = true
  · rw [if_pos hall]
    obtain ⟨b', h1, h2, h3, h4, h5⟩ := C36_clear b hw hm
    refine ⟨b', h1, h2, h3, h4, ?_⟩
    intro c f hc hf
    obtain ⟨v, hv⟩ := sample?_isSome b hw c f hc hf
    have hgf : gain[f]? = some (gain[f]'(by omega)) := List.getElem?_eq_getElem _
    have h0 : gain[f]'(by omega) = 0 := hz _ (List.all_eq_true.mp hall _ (List.getElem_mem _))
    rw [h5 c f hc hf, hv, hgf, h0]
    simp
  · rw [if_neg hall]
    by_cases hall1 : gain.all isOne = true
    · rw [if_pos hall1]
      refine ⟨b, rfl, SameShape.refl _, hw, hm, ?_⟩
      intro c f hc hf
      obtain ⟨v, hv⟩ := sample?_isSome b hw c f hc hf
      have hgf : gain[f]? = some (gain[f]'(by omega)) := List.getElem?_eq_getElem _
      have h0 : gain[f]'(by omega) = 1 := ho _ (List.all_eq_true.mp hall1 _ (List.getElem_mem _))
      rw [hv, hgf, h0]
      simp
    · rw [if_neg hall1]
      have key : ∀ N, N ≤ b.channelCount → ∃ b', (List.range N).foldlM
          (fun (b : Buf S) c => b.modifyChannel (Loc.ofChannel c)
            (fun data => .ok (Kernels.multiply (al c).1 (al c).2 data gain))) b = .ok b' ∧
          b.SameShape b' ∧ b'.WF ∧ b'.Writable ∧
          ∀ c f, b'.sample? c f = if c < N ∧ f < b.frameCount then
            (b.sample? c f).bind (fun s => (gain[f]?).map (fun g => s * g))
            else b.sample? c f := by
        intro N
        induction N with
        | zero =>
          intro _
          exact ⟨b, rfl, SameShape.refl _, hw, hm, fun c f => by rw [if_neg (by omega)]⟩
        | succ N ih =>
          intro hN
          obtain ⟨b1, e1, hsh, hw1, hm1, hs1⟩ := ih (by omega)
          obtain ⟨l, hl, hll, hget⟩ := channelData_spec b1 hw1 (Loc.ofChannel N)
            (by rw [← hsh.channelCount]; simp only [Loc.ofChannel]; omega)
            (by simp [Loc.ofChannel])
          simp only [Loc.ofChannel, Nat.zero_add, Nat.sub_zero] at hll hget
          have hfc := hsh.frameCount
          have hker : Kernels.multiply (al N).1 (al N).2 l gain =
              Kernels.zipInto (fun g s => s * g) gain l := by
            rw [Kernels.multiply, Kernels.kernel2_eq _ _ _ _ _ (by omega)]
          obtain ⟨b2, e2, hsh2, hw2, hm2, hs2⟩ := modifyChannel_spec b1 hw1 hm1
            (Loc.ofChannel N)
            (by rw [← hsh.channelCount]; simp only [Loc.ofChannel]; omega)
            (by simp [Loc.ofChannel])
            (fun data => .ok (Kernels.multiply (al N).1 (al N).2 data gain)) l
            (Kernels.multiply (al N).1 (al N).2 l gain) hl rfl
            (by rw [hker, Kernels.length_zipInto])
          refine ⟨b2, ?_, hsh.trans hsh2, hw2, hm2, ?_⟩
          · rw [List.range_succ, List.foldlM_append, e1]
            simp only [List.foldlM_cons, List.foldlM_nil, bind, Except.bind]
            rw [e2]; rfl
          · intro c f
            rw [hs2]
            simp only [Loc.ofChannel, Nat.zero_le, true_and, Nat.sub_zero]
            by_cases hc : c = N
            · subst hc
              by_cases hf : f < b1.frameCount
              · rw [if_pos ⟨rfl, hf⟩, if_pos (by omega), hker,
                  Kernels.zipInto_get _ _ _ (by omega) f (by omega)]
                have hlf := hget f
                rw [List.getElem?_eq_getElem (by omega), hs1, if_neg (by omega)] at hlf
                rw [← hlf, List.getElem?_eq_getElem (by omega)]
                rfl
              · rw [if_neg (by omega), hs1, if_neg (by omega), if_neg (by omega)]
            · rw [if_neg (by omega), hs1]
              by_cases h : c < N ∧ f < b.frameCount
              · rw [if_pos h, if_pos (by omega)]
              · rw [if_neg h, if_neg (by omega)]
      obtain ⟨b', h1, h2, h3, h4, h5⟩ := key _ le_rfl
      exact ⟨b', h1, h2, h3, h4, fun c f hc hf => by rw [h5, if_pos ⟨hc, hf⟩]⟩

example : demo2.WF ∧ demo2.Writable ∧ [2, 0, 1].length = demo2.frameCount := ⟨rfl, trivial, rfl⟩

end Buf
end Rawdio
