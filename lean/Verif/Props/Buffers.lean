import Mathlib.Algebra.GroupWithZero.Defs
import Mathlib.Algebra.Ring.Int.Defs
import Mathlib.Tactic.NormNum
import Verif.Lemmas.Buffer2

/-!
# Properties of audio buffers (C29, C30, C32, C34, C35)

`S` is an arbitrary type of samples, so the statements hold of `f32` as it is.
-/

namespace Rawdio
namespace Buf

variable {S : Type}

/-- A 2 channel, 3 frame buffer with distinct samples, used by the examples. -/
def demo : Buf Int := .owned [1, 2, 3, 4, 5, 6] 2 3 44100

theorem demo_wf : demo.WF := rfl

/-! ## C29 -/

/-- C29: `get_sample` returns what the grid holds. -/
theorem C29_get_sample (b : Buf S) (hw : b.WF) (c f : Nat) (hc : c < b.channelCount)
    (hf : f < b.frameCount) : ∃ v, b.sample? c f = some v ∧ b.getSample ⟨c, f⟩ = .ok v :=
  getSample_eq b hw c f hc hf

example : demo.getSample ⟨1, 0⟩ = .ok 4 := rfl

/-- C29: writing a sample changes that sample only; the buffer stays usable. -/
theorem C29_write_one_sample (b : Buf S) (hw : b.WF) (hm : b.Writable) (c f : Nat)
    (hc : c < b.channelCount) (hf : f < b.frameCount) (v : S) :
    ∃ b', b.setSample ⟨c, f⟩ v = .ok b' ∧ b.SameShape b' ∧ b'.WF ∧ b'.Writable ∧
      b'.getSample ⟨c, f⟩ = .ok v ∧
      ∀ c' f', c' < b.channelCount → f' < b.frameCount → (c', f') ≠ (c, f) →
        b'.getSample ⟨c', f'⟩ = b.getSample ⟨c', f'⟩ := by
  obtain ⟨l, hl, hlen, hget⟩ := channelData_spec b hw ⟨c, f⟩ hc (by simp only; omega)
  simp only at hlen hget
  cases l with
  | nil => simp at hlen; omega
  | cons x xs =>
    obtain ⟨b', hb', hsh, hw', hm', hs⟩ := modifyChannel_spec b hw hm ⟨c, f⟩ hc
      (by simp only; omega)
      (setFirst v)
      (x :: xs) (v :: xs) hl rfl rfl
    refine ⟨b', hb', hsh, hw', hm', ?_, ?_⟩
    · obtain ⟨w, hw1, hw2⟩ := getSample_eq b' hw' c f (by rw [← hsh.channelCount]; exact hc)
        (by rw [← hsh.frameCount]; exact hf)
      rw [hs, if_pos ⟨rfl, le_refl _, hf⟩] at hw1
      simp only [Nat.sub_self, List.getElem?_cons_zero, Option.some.injEq] at hw1
      rw [hw2, hw1]
    · intro c' f' hc' hf' hne
      obtain ⟨w, hw1, hw2⟩ := getSample_eq b' hw' c' f' (by rw [← hsh.channelCount]; exact hc')
        (by rw [← hsh.frameCount]; exact hf')
      obtain ⟨u, hu1, hu2⟩ := getSample_eq b hw c' f' hc' hf'
      rw [hw2, hu2]
      rw [hs] at hw1
      simp only at hw1
      split_ifs at hw1 with hcond
      · obtain ⟨h1, h2, h3⟩ := hcond
        have hff : f' ≠ f := fun h => hne (by rw [h1, h])
        have hg := hget (f' - f)
        have e1 : f' - f = (f' - f - 1) + 1 := by omega
        rw [e1, List.getElem?_cons_succ] at hw1
        rw [e1, List.getElem?_cons_succ, hw1, ← e1, ← h1,
          show f + (f' - f) = f' by omega, hu1] at hg
        injection hg with hg; rw [hg]
      · rw [hu1] at hw1; injection hw1 with hw1; rw [hw1]

example : demo.WF ∧ demo.Writable ∧ 1 < demo.channelCount ∧ 2 < demo.frameCount := by
  refine ⟨rfl, trivial, ?_, ?_⟩ <;> decide

/-- C29: `add_sample` adds to that sample and changes nothing else. -/
theorem C29_add_sample [Add S] (b : Buf S) (hw : b.WF) (hm : b.Writable) (c f : Nat)
    (hc : c < b.channelCount) (hf : f < b.frameCount) (v : S) :
    ∃ b' before, b.addSample ⟨c, f⟩ v = .ok b' ∧ b.SameShape b' ∧ b'.WF ∧ b'.Writable ∧
      b.getSample ⟨c, f⟩ = .ok before ∧ b'.getSample ⟨c, f⟩ = .ok (v + before) ∧
      ∀ c' f', c' < b.channelCount → f' < b.frameCount → (c', f') ≠ (c, f) →
        b'.getSample ⟨c', f'⟩ = b.getSample ⟨c', f'⟩ := by
  obtain ⟨before, _, h1⟩ := C29_get_sample b hw c f hc hf
  obtain ⟨b', h2, h3, h4, h5, h6, h7⟩ := C29_write_one_sample b hw hm c f hc hf (v + before)
  refine ⟨b', before, ?_, h3, h4, h5, h1, h6, h7⟩
  unfold addSample
  rw [h1]
  exact h2

example : demo.addSample ⟨1, 0⟩ 10 = .ok (.owned [1, 2, 3, 14, 5, 6] 2 3 44100) := rfl

/-- C29: `channel_is_silent` looks at all samples of the channel. -/
theorem C29_channel_is_silent (isZero : S → Bool) (b : Buf S) (hw : b.WF) (c : Nat) (hc : c < b.channelCount) :
    ∃ r, b.channelIsSilent isZero c = .ok r ∧
      (r = true ↔ ∀ f v, f < b.frameCount → b.getSample ⟨c, f⟩ = .ok v → isZero v = true) := by
  obtain ⟨l, hl, hlen, hget⟩ := channelData_spec b hw ⟨c, 0⟩ hc (Nat.zero_le _)
  simp only [Nat.sub_zero, Nat.zero_add] at hlen hget
  refine ⟨l.all isZero, ?_, ?_⟩
  · unfold channelIsSilent
    rw [show Loc.ofChannel c = ⟨c, 0⟩ from rfl, hl]
    rfl
  · rw [List.all_eq_true]
    constructor
    · intro h f v hf hv
      obtain ⟨w, h1, h2⟩ := C29_get_sample b hw c f hc hf
      rw [hv] at h2
      injection h2 with h2
      subst h2
      refine h v (List.mem_of_getElem? (i := f) ?_)
      rw [hget f, h1]
    · intro h v hv
      obtain ⟨f, hf⟩ := List.mem_iff_getElem?.mp hv
      have hlt : f < b.frameCount := by
        by_contra hn
        rw [List.getElem?_eq_none (by omega)] at hf
        cases hf
      obtain ⟨w, h1, h2⟩ := C29_get_sample b hw c f hc hlt
      rw [hget f, h1] at hf
      injection hf with hf
      subst hf
      exact h f w hlt h2

example : (Buf.owned [0, 0, 1, 0] 2 2 44100).channelIsSilent (fun x : Nat => x = 0) 0 = .ok true ∧
    (Buf.owned [0, 0, 1, 0] 2 2 44100).channelIsSilent (fun x : Nat => x = 0) 1 = .ok false := ⟨rfl, rfl⟩

/-- C29: writing through a mutable slice is writing the shifted location of its parent, and nothing
else of the parent. -/
theorem C29_write_through_slice (p : Buf S) (hw : p.WF) (hm : p.Writable) (r : Range)
    (hr1 : r.channel + r.channelCount ≤ p.channelCount)
    (hr2 : r.frame + r.frameCount ≤ p.frameCount) (c f : Nat)
    (hc : c < r.channelCount) (hf : f < r.frameCount) (v : S) :
    ∃ p', (slice p r true).setSample ⟨c, f⟩ v = .ok (slice p' r true) ∧
      p'.getSample ⟨c + r.channel, f + r.frame⟩ = .ok v ∧
      ∀ c' f', c' < p.channelCount → f' < p.frameCount →
        (c', f') ≠ (c + r.channel, f + r.frame) →
        p'.getSample ⟨c', f'⟩ = p.getSample ⟨c', f'⟩ := by
  obtain ⟨p', hp', hsh, hw', _, hg, hrest⟩ := C29_write_one_sample p hw hm (c + r.channel)
    (f + r.frame) (by omega) (by omega) v
  refine ⟨p', ?_, hg, hrest⟩
  -- the slice applies the same change to a prefix of the parent's channel data
  obtain ⟨l, hl, hlen, _⟩ := channelData_spec p hw ⟨c + r.channel, f + r.frame⟩
    (by simp only; omega) (by simp only; omega)
  simp only at hlen
  cases l with
  | nil => simp at hlen; omega
  | cons x xs =>
    have key : p.modifyChannel ⟨c + r.channel, f + r.frame⟩
        (fun data => if f ≤ r.frameCount then modifyRange data 0 (r.frameCount - f)
          (setFirst v)
          else .error .panic) = .ok p' := by
      rw [← hp']
      unfold setSample
      apply modifyChannel_congr p _ _ hl
      simp only [show f ≤ r.frameCount by omega, if_true]
      have h0 : 0 < r.frameCount - f := by omega
      rw [modifyRange_ok (part := v :: xs.take (r.frameCount - f - 1)) (Nat.zero_le _)
        (by simp only [List.length_cons] at hlen ⊢; omega)]
      · obtain ⟨k, hk⟩ : ∃ k, r.frameCount - f = k + 1 := ⟨r.frameCount - f - 1, by omega⟩
        simp [hk, setFirst]
      · obtain ⟨k, hk⟩ : ∃ k, r.frameCount - f = k + 1 := ⟨r.frameCount - f - 1, by omega⟩
        simp [hk, setFirst]
    unfold setSample
    rw [modifyChannel_slice]
    simp only [key, bind, Except.bind, pure, Except.pure]

example : demo.WF ∧ demo.Writable ∧ (1 + 1 ≤ demo.channelCount) ∧ (1 + 2 ≤ demo.frameCount) := by
  refine ⟨rfl, trivial, ?_, ?_⟩ <;> decide

/-! ## C30 -/

/-- C30: `copy_from` sets exactly the region to the source's samples. -/
theorem C30_copy_from (dst src : Buf S) (hd : dst.WF) (hm : dst.Writable) (hs : src.WF)
    (sl dl : Loc) (N n : Nat)
    (h1 : sl.channel + N ≤ src.channelCount) (h2 : sl.frame + n ≤ src.frameCount)
    (h3 : dl.channel + N ≤ dst.channelCount) (h4 : dl.frame + n ≤ dst.frameCount) :
    ∃ b', dst.copyFrom src sl dl N n = .ok b' ∧ dst.SameShape b' ∧ b'.WF ∧ b'.Writable ∧
      ∀ c f, b'.sample? c f =
        if dl.channel ≤ c ∧ c < dl.channel + N ∧ dl.frame ≤ f ∧ f < dl.frame + n then
          src.sample? (sl.channel + (c - dl.channel)) (sl.frame + (f - dl.frame))
        else dst.sample? c f :=
  copyFrom_spec dst src hd hm hs sl dl N n h1 h2 h3 h4

/-- C30: `add_from` adds the source's samples inside the region and changes nothing else, for every
alignment of the data. -/
theorem C30_add_from [Add S] (al : Nat → Nat × Nat) (dst src : Buf S) (hd : dst.WF)
    (hm : dst.Writable) (hs : src.WF) (sl dl : Loc) (N n : Nat)
    (h1 : sl.channel + N ≤ src.channelCount) (h2 : sl.frame + n ≤ src.frameCount)
    (h3 : dl.channel + N ≤ dst.channelCount) (h4 : dl.frame + n ≤ dst.frameCount) :
    ∃ b', dst.addFrom al src sl dl N n = .ok b' ∧ dst.SameShape b' ∧ b'.WF ∧ b'.Writable ∧
      ∀ c f, b'.sample? c f =
        if dl.channel ≤ c ∧ c < dl.channel + N ∧ dl.frame ≤ f ∧ f < dl.frame + n then
          (src.sample? (sl.channel + (c - dl.channel)) (sl.frame + (f - dl.frame))).bind
            (fun s => (dst.sample? c f).map (fun d => d + s))
        else dst.sample? c f := by
  have h := addLike_spec dst src hd hm hs sl dl N n (fun s d => d + s) al h1 h2 h3 h4
  unfold addFrom
  by_cases hn : n = 0
  · rw [if_pos hn]
    exact ⟨dst, rfl, SameShape.refl _, hd, hm, fun c f => by rw [if_neg (by omega)]⟩
  · rw [if_neg hn]
    by_cases hN : N = 0
    · rw [if_pos hN]
      exact ⟨dst, rfl, SameShape.refl _, hd, hm, fun c f => by rw [if_neg (by omega)]⟩
    · rw [if_neg hN]
      exact h

/-- C30: `add_from_with_gain`. -/
theorem C30_add_from_with_gain [Add S] [Mul S] (al : Nat → Nat × Nat) (dst src : Buf S)
    (hd : dst.WF) (hm : dst.Writable) (hs : src.WF) (sl dl : Loc) (N n : Nat) (gain : S)
    (h1 : sl.channel + N ≤ src.channelCount) (h2 : sl.frame + n ≤ src.frameCount)
    (h3 : dl.channel + N ≤ dst.channelCount) (h4 : dl.frame + n ≤ dst.frameCount) :
    ∃ b', dst.addFromWithGain al src sl dl N n gain = .ok b' ∧ dst.SameShape b' ∧ b'.WF ∧
      b'.Writable ∧
      ∀ c f, b'.sample? c f =
        if dl.channel ≤ c ∧ c < dl.channel + N ∧ dl.frame ≤ f ∧ f < dl.frame + n then
          (src.sample? (sl.channel + (c - dl.channel)) (sl.frame + (f - dl.frame))).bind
            (fun s => (dst.sample? c f).map (fun d => d + s * gain))
        else dst.sample? c f := by
  have h := addLike_spec dst src hd hm hs sl dl N n (fun s d => d + s * gain) al h1 h2 h3 h4
  unfold addFromWithGain
  by_cases hn : n = 0
  · rw [if_pos hn]
    exact ⟨dst, rfl, SameShape.refl _, hd, hm, fun c f => by rw [if_neg (by omega)]⟩
  · rw [if_neg hn]
    by_cases hN : N = 0
    · rw [if_pos hN]
      exact ⟨dst, rfl, SameShape.refl _, hd, hm, fun c f => by rw [if_neg (by omega)]⟩
    · rw [if_neg hN]
      exact h

/-- The hypotheses of the C30 theorems hold for copying 2 channels × 2 frames at an offset. -/
example : demo.WF ∧ demo.Writable ∧ (0 + 2 ≤ demo.channelCount) ∧ (1 + 2 ≤ demo.frameCount) := by
  refine ⟨rfl, trivial, ?_, ?_⟩ <;> decide

/-- C30: between owned buffers, copying a non-empty region that does not fit in either buffer
panics. -/
theorem C30_copy_outside_aborts (dd sd : List S) (dc df dr sc sf sr : Nat)
    (hd : dd.length = dc * df) (hs : sd.length = sc * sf) (sl dl : Loc) (N n : Nat)
    (hN : 0 < N) (hn : 0 < n)
    (hout : ¬ (sl.channel + N ≤ sc ∧ sl.frame + n ≤ sf ∧ dl.channel + N ≤ dc ∧
      dl.frame + n ≤ df)) :
    (owned dd dc df dr).copyFrom (owned sd sc sf sr) sl dl N n = .error .panic := by
  cases h : (owned dd dc df dr).copyFrom (owned sd sc sf sr) sl dl N n with
  | error e =>
    congr 1
    refine foldlM_error _ _ ?_ h
    intro b c e he
    simp only [bind, Except.bind] at he
    split at he
    · rename_i e' h1; injection he with he; subst he; exact channelData_error h1
    · split at he
      · rename_i e' h1; injection he with he; subst he; exact sliceRange_error h1
      · exact modifyPart_error he
  | ok b' =>
    exfalso
    apply hout
    obtain ⟨_, hall⟩ := foldlM_range_ok N _ b' h
      (fun b => ∃ d, b = owned d dc df dr ∧ d.length = dc * df) ⟨dd, rfl, hd⟩ (by
        rintro b c b'' ⟨d, rfl, hdl⟩ hb
        simp only [bind, Except.bind] at hb
        split at hb
        · cases hb
        · split at hb
          · cases hb
          · rename_i l1 _ l2 h2
            refine owned_modifyPart_shape hdl ?_ hn hb
            intro l hl
            simp only [sliceRange] at h2
            split_ifs at h2
            injection h2 with h2
            rw [← h2]
            simp only [List.length_take, List.length_drop]; omega)
    obtain ⟨b1, b2, ⟨d, rfl, hdl⟩, hb⟩ := hall (N - 1) (by omega)
    simp only [bind, Except.bind] at hb
    split at hb
    · cases hb
    · rename_i l1 h1
      split at hb
      · cases hb
      · rename_i l2 h2
        have e1 := owned_range_ok hs hn h1 h2
        have e2 := owned_modifyPart_ok hdl hn hb
        simp only [Loc.offsetChannels] at e1 e2
        omega

example : ¬ (0 + 2 ≤ 1 ∧ 0 + 3 ≤ 3 ∧ 0 + 2 ≤ 2 ∧ 0 + 3 ≤ 3) := by decide

/-! ## C32 -/

/-- C32: a slice is created exactly when it fits in the parent, and otherwise the call panics. -/
theorem C32_slice_created_iff (b : Buf S) (r : Range) (m : Bool) :
    (r.channel + r.channelCount ≤ b.channelCount ∧ r.frame + r.frameCount ≤ b.frameCount →
      b.mkSlice r m = .ok (slice b r m)) ∧
    (¬ (r.channel + r.channelCount ≤ b.channelCount ∧ r.frame + r.frameCount ≤ b.frameCount) →
      b.mkSlice r m = .error .panic) := by
  unfold mkSlice rangeIsValid
  constructor
  · rintro ⟨h1, h2⟩
    have a1 : ¬ b.channelCount < r.channel + r.channelCount := by omega
    have a2 : ¬ b.frameCount < r.frame + r.frameCount := by omega
    simp [a1, a2]
  · intro h
    by_cases h1 : b.channelCount < r.channel + r.channelCount
    · simp [h1]
    · have a2 : b.frameCount < r.frame + r.frameCount := by omega
      simp [a2]

/-- C32: reading a slice is reading the shifted location of its parent. -/
theorem C32_slice_is_window (b s : Buf S) (hw : b.WF) (r : Range) (m : Bool)
    (h : b.mkSlice r m = .ok s) :
    s.WF ∧ s.channelCount = r.channelCount ∧ s.frameCount = r.frameCount ∧
      ∀ c f, c < r.channelCount → f < r.frameCount →
        s.getSample ⟨c, f⟩ = b.getSample ⟨c + r.channel, f + r.frame⟩ := by
  by_cases hv : r.channel + r.channelCount ≤ b.channelCount ∧
      r.frame + r.frameCount ≤ b.frameCount
  · rw [(C32_slice_created_iff b r m).1 hv] at h
    injection h with h; subst h
    have hsw : (slice b r m).WF := ⟨hw, hv.1, hv.2⟩
    refine ⟨hsw, rfl, rfl, ?_⟩
    intro c f hc hf
    obtain ⟨v, hv1, hv2⟩ := getSample_eq (slice b r m) hsw c f hc hf
    obtain ⟨u, hu1, hu2⟩ := getSample_eq b hw (c + r.channel) (f + r.frame) (by omega) (by omega)
    rw [hv2, hu2]
    simp only [sample?, hc, hf, and_self, if_true, hu1] at hv1
    injection hv1 with hv1; rw [hv1]
  · rw [(C32_slice_created_iff b r m).2 hv] at h; cases h

/-- C32: a slice of a slice is the slice with the added offsets. -/
theorem C32_slices_compose (b s t : Buf S) (hw : b.WF) (r q : Range) (m m' : Bool)
    (h1 : b.mkSlice r m = .ok s) (h2 : s.mkSlice q m' = .ok t) :
    ∃ u, b.mkSlice ⟨r.channel + q.channel, r.frame + q.frame, q.channelCount, q.frameCount⟩ m'
        = .ok u ∧
      ∀ c f, c < q.channelCount → f < q.frameCount →
        t.getSample ⟨c, f⟩ = u.getSample ⟨c, f⟩ := by
  obtain ⟨hsw, hsc, hsf, hs⟩ := C32_slice_is_window b s hw r m h1
  obtain ⟨_, _, _, ht⟩ := C32_slice_is_window s t hsw q m' h2
  have hrv : r.channel + r.channelCount ≤ b.channelCount ∧
      r.frame + r.frameCount ≤ b.frameCount := by
    by_contra hv
    rw [(C32_slice_created_iff b r m).2 hv] at h1; cases h1
  have hqv : q.channel + q.channelCount ≤ s.channelCount ∧
      q.frame + q.frameCount ≤ s.frameCount := by
    by_contra hv
    rw [(C32_slice_created_iff s q m').2 hv] at h2; cases h2
  have hu := (C32_slice_created_iff b
    ⟨r.channel + q.channel, r.frame + q.frame, q.channelCount, q.frameCount⟩ m').1
    ⟨by simp only; omega, by simp only; omega⟩
  refine ⟨_, hu, ?_⟩
  obtain ⟨_, _, _, huw⟩ := C32_slice_is_window b _ hw _ m' hu
  intro c f hc hf
  rw [ht c f hc hf, huw c f hc hf, hs (c + q.channel) (f + q.frame) (by omega) (by omega)]
  congr 2 <;> simp only <;> omega

example : ∃ s t : Buf Int, demo.mkSlice ⟨0, 1, 2, 2⟩ true = .ok s ∧
    s.mkSlice ⟨1, 1, 1, 1⟩ true = .ok t ∧ t.getSample ⟨0, 0⟩ = .ok 6 := ⟨_, _, rfl, rfl, rfl⟩

/-- C32: `slice_frames` shows all channels of the chosen frames. -/
theorem C32_slice_frames (b s : Buf S) (hw : b.WF) (o n : Nat) (m : Bool)
    (h : b.sliceFrames o n m = .ok s) :
    s.channelCount = b.channelCount ∧ s.frameCount = n ∧
      ∀ c f, c < b.channelCount → f < n → s.getSample ⟨c, f⟩ = b.getSample ⟨c, f + o⟩ := by
  obtain ⟨_, h1, h2, h3⟩ := C32_slice_is_window b s hw _ m h
  exact ⟨h1, h2, fun c f hc hf => by simpa using h3 c f hc hf⟩

/-- C32: the mutable `slice_channels` shows all frames of the chosen channels. -/
theorem C32_slice_channels_mut (b s : Buf S) (hw : b.WF) (o n : Nat)
    (h : b.sliceChannelsMut o n = .ok s) :
    s.channelCount = n ∧ s.frameCount = b.frameCount ∧
      ∀ c f, c < n → f < b.frameCount → s.getSample ⟨c, f⟩ = b.getSample ⟨c + o, f⟩ := by
  obtain ⟨_, h1, h2, h3⟩ := C32_slice_is_window b s hw _ true h
  exact ⟨h1, h2, fun c f hc hf => by simpa using h3 c f hc hf⟩

example : ∃ s : Buf Int, demo.sliceFrames 1 2 false = .ok s ∧ s.getSample ⟨1, 0⟩ = .ok 5 :=
  ⟨_, rfl, rfl⟩
example : ∃ s : Buf Int, demo.sliceChannelsMut 1 1 = .ok s ∧ s.getSample ⟨0, 0⟩ = .ok 4 :=
  ⟨_, rfl, rfl⟩

/-- The full claim for the immutable `slice_channels`: a request inside the buffer gives a slice
with the requested channels and all frames. -/
def SliceChannelsCorrect (S : Type) : Prop :=
  ∀ (b : Buf S) (o n : Nat), b.WF → o + n ≤ b.channelCount →
    ∃ s, b.sliceChannels o n = .ok s ∧ s.channelCount = n ∧ s.frameCount = b.frameCount ∧
      ∀ c f, c < n → f < b.frameCount → s.getSample ⟨c, f⟩ = b.getSample ⟨c + o, f⟩

/-- C32 is violated: the immutable `slice_channels` swaps its counts; slicing 1 channel of a 2
channel, 3 frame buffer panics. -/
theorem C32_slice_channels_violated : ¬ SliceChannelsCorrect Int := by
  intro h
  obtain ⟨s, hs, _⟩ := h demo 0 1 rfl (by decide)
  have : demo.sliceChannels 0 1 = .error .panic := rfl
  rw [this] at hs
  cases hs

/-- C32, partial: `slice_channels` is right when as many channels are requested as the buffer has
frames.  Missing: every other request (see `C32_slice_channels_violated`). -/
theorem C32_slice_channels_partial (b : Buf S) (o n : Nat) (hw : b.WF)
    (h : o + n ≤ b.channelCount) (hn : n = b.frameCount) :
    ∃ s, b.sliceChannels o n = .ok s ∧ s.channelCount = n ∧ s.frameCount = b.frameCount ∧
      ∀ c f, c < n → f < b.frameCount → s.getSample ⟨c, f⟩ = b.getSample ⟨c + o, f⟩ := by
  subst hn
  have hu := (C32_slice_created_iff b ⟨o, 0, b.frameCount, b.frameCount⟩ false).1
    ⟨h, by simp⟩
  refine ⟨_, hu, rfl, rfl, ?_⟩
  obtain ⟨_, _, _, h3⟩ := C32_slice_is_window b _ hw _ false hu
  intro c f hc hf
  simpa using h3 c f hc hf

example : (Buf.owned [1, 2, 3, 4] 2 2 44100 : Buf Int).WF ∧
    (0 + 2 ≤ (Buf.owned [1, 2, 3, 4] 2 2 44100 : Buf Int).channelCount) := ⟨rfl, by decide⟩

/-- C32 is violated in another way: a slice does not stop a read of a channel it does not have; the
one channel slice of a stereo buffer shows the other channel at index 1. -/
theorem C32_slice_channel_bound_violated :
    ∃ s : Buf Int, demo.mkSlice ⟨0, 0, 1, 3⟩ false = .ok s ∧ s.channelCount = 1 ∧
      s.getSample ⟨1, 0⟩ = .ok 4 := ⟨_, rfl, rfl, rfl⟩

/-! ## C34 -/

/-- The locations of a `cc` channel, `fc` frame buffer, channel by channel. -/
def allLocations (cc fc : Nat) : List Loc :=
  (List.range cc).flatMap (fun c => (List.range fc).map (fun f => ⟨c, f⟩))

/-- C34: iterating visits every location exactly once, channel by channel, and then ends. -/
theorem C34_frame_iter (b : Buf S) (fuel : Nat)
    (hfuel : b.channelCount * b.frameCount < fuel) :
    FrameIter.collect fuel b.frameIter = some (allLocations b.channelCount b.frameCount) := by
  generalize hcc : b.channelCount = cc at *
  generalize hfc : b.frameCount = fc at *
  have hit : b.frameIter = ⟨0, 0, cc, fc⟩ := by rw [frameIter, hcc, hfc]
  rw [hit]
  by_cases hz : fc = 0
  · subst hz
    cases fuel with
    | zero => omega
    | succ n =>
      have : allLocations cc 0 = [] := by simp [allLocations]
      simp [FrameIter.collect, FrameIter.next, this]
  · -- from any position (c, f) the iterator produces the rest of channel c and the later channels
    have key : ∀ k c f fuel, c ≤ cc → f < fc → (c = cc → f = 0) → k = (cc - c) * fc - f → k < fuel →
        FrameIter.collect fuel ⟨c, f, cc, fc⟩ = some
          ((if c < cc then (List.range' f (fc - f)).map (fun f => (⟨c, f⟩ : Loc)) else []) ++
            (List.range' (c + 1) (cc - (c + 1))).flatMap
              (fun c => (List.range fc).map (fun f => (⟨c, f⟩ : Loc)))) := by
      intro k
      induction k with
      | zero =>
        intro c f fuel hc hf hcf hk hfu
        have hcc' : c = cc := by
          by_contra hne
          have : 1 * fc ≤ (cc - c) * fc := Nat.mul_le_mul_right _ (by omega)
          omega
        subst hcc'
        cases fuel with
        | zero => omega
        | succ n =>
          simp [FrameIter.collect, FrameIter.next]
      | succ k ih =>
        intro c f fuel hc hf hcf hk hfu
        have hcc' : c < cc := by
          by_contra hne
          have : cc - c = 0 := by omega
          rw [this] at hk; omega
        cases fuel with
        | zero => omega
        | succ n =>
          have hmul : (cc - c) * fc = (cc - (c + 1)) * fc + fc := by
            rw [show cc - c = (cc - (c + 1)) + 1 by omega, Nat.succ_mul]
          by_cases hend : fc ≤ f + 1
          · have hff : fc - f = 1 := by omega
            have hnext : FrameIter.next ⟨c, f, cc, fc⟩ = (some ⟨c, f⟩, ⟨c + 1, 0, cc, fc⟩) := by
              simp [FrameIter.next, hcc', hf, hend]
            rw [FrameIter.collect, hnext]
            simp only
            rw [ih (c + 1) 0 n (by omega) (by omega) (fun _ => rfl) (by omega) (by omega)]
            simp only [hcc', if_true, hff, Option.map_some, List.range'_one, List.map_cons,
              List.map_nil, List.cons_append, List.nil_append]
            congr 2
            by_cases hlast : c + 1 < cc
            · rw [if_pos hlast, show cc - (c + 1) = (cc - (c + 1 + 1)) + 1 by omega,
                List.range'_succ, List.flatMap_cons, List.range_eq_range']
              simp
            · rw [if_neg hlast, show cc - (c + 1) = 0 by omega,
                show cc - (c + 1 + 1) = 0 by omega]
              simp
          · have hnext : FrameIter.next ⟨c, f, cc, fc⟩ = (some ⟨c, f⟩, ⟨c, f + 1, cc, fc⟩) := by
              simp [FrameIter.next, hcc', hf, hend]
            rw [FrameIter.collect, hnext]
            simp only
            rw [ih c (f + 1) n (by omega) (by omega) (fun h => by omega) (by omega) (by omega)]
            simp only [hcc', if_true, Option.map_some]
            rw [show fc - f = (fc - (f + 1)) + 1 by omega, List.range'_succ]
            simp
    rw [key (cc * fc) 0 0 fuel (Nat.zero_le _) (by omega) (fun _ => rfl) (by simp) hfuel]
    congr 1
    unfold allLocations
    by_cases hcz : cc = 0
    · subst hcz; simp
    · rw [if_pos (by omega), List.range_eq_range' (n := cc),
        show cc = (cc - (0 + 1)) + 1 by omega, List.range'_succ, List.flatMap_cons,
        List.range_eq_range' (n := fc)]
      simp

example : FrameIter.collect 7 demo.frameIter =
    some [⟨0, 0⟩, ⟨0, 1⟩, ⟨0, 2⟩, ⟨1, 0⟩, ⟨1, 1⟩, ⟨1, 2⟩] := by decide

end Buf

/-! ## C35 -/

namespace Kernels

variable {S : Type}

/-- C35: `mix_into` is the element-wise sum for every alignment. -/
theorem C35_mix_into [Add S] (preS preD : Nat) (s d : List S) (h : s.length = d.length) :
    mixInto preS preD s d = List.zipWith (fun i o => o + i) s d := by
  rw [mixInto, kernel2_eq _ _ _ _ _ h, zipInto_eq_zipWith _ _ _ h]

/-- C35: `mix_into_with_gain`. -/
theorem C35_mix_into_with_gain [Add S] [Mul S] (preS preD : Nat) (s d : List S) (g : S)
    (h : s.length = d.length) :
    mixIntoWithGain preS preD s d g = List.zipWith (fun i o => o + i * g) s d := by
  rw [mixIntoWithGain, kernel2_eq _ _ _ _ _ h, zipInto_eq_zipWith _ _ _ h]

/-- C35: `subtract_from`. -/
theorem C35_subtract_from [Sub S] (preS preD : Nat) (s d : List S) (h : s.length = d.length) :
    subtractFrom preS preD s d = List.zipWith (fun i o => o - i) s d := by
  rw [subtractFrom, kernel2_eq _ _ _ _ _ h, zipInto_eq_zipWith _ _ _ h]

/-- C35: `multiply`. -/
theorem C35_multiply [Mul S] (preG preD : Nat) (data gain : List S)
    (h : data.length = gain.length) :
    multiply preG preD data gain = List.zipWith (fun s g => s * g) data gain := by
  rw [multiply, kernel2_eq _ _ _ _ _ h.symm, zipInto_eq_zipWith _ _ _ h.symm, List.zipWith_comm]

/-- C35: `multiply_by_value`. -/
theorem C35_multiply_by_value [Mul S] (pre : Nat) (data : List S) (g : S) :
    multiplyByValue pre data g = data.map (fun s => s * g) := multiplyByValue_eq pre data g

/-- C35: `mix_into_with_gains`: every element, and the length. -/
theorem C35_mix_into_with_gains [Add S] [Mul S] (preS preD preG : Nat) (s d g : List S)
    (h : s.length = d.length) (h2 : s.length = g.length) :
    (mixIntoWithGains preS preD preG s d g).length = d.length ∧
    ∀ i (hi : i < d.length), (mixIntoWithGains preS preD preG s d g)[i]? =
      some (d[i] + s[i]'(by omega) * g[i]'(by omega)) := by
  rw [mixIntoWithGains, kernel3_eq _ _ _ _ _ _ _ h h2]
  exact ⟨length_zipInto3 .., fun i hi => zipInto3_get _ _ _ _ h h2 i hi⟩

/-- C35: `mix`: every element, and the length. -/
theorem C35_mix [Add S] (pre1 pre2 preD : Nat) (s1 s2 d : List S)
    (h : s1.length = d.length) (h2 : s1.length = s2.length) :
    (mix pre1 pre2 preD s1 s2 d).length = d.length ∧
    ∀ i (hi : i < d.length), (mix pre1 pre2 preD s1 s2 d)[i]? =
      some (s1[i]'(by omega) + s2[i]'(by omega)) := by
  rw [mix, kernel3_eq _ _ _ _ _ _ _ h h2]
  exact ⟨length_zipInto3 .., fun i hi => zipInto3_get _ _ _ _ h h2 i hi⟩

/-- A case with an unaligned prefix of 3, two vectors and a remainder of 5. -/
example : (List.range 40).length = (List.replicate 40 1).length ∧
    ((asSimd 3 (List.range 40)).2.1.length = 2) := by decide

end Kernels
end Rawdio
