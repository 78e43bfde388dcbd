import Mathlib.Data.List.Basic
import Mathlib.Tactic.Linarith
import Mathlib.Tactic.Ring
import Verif.Spec.Grid
import Verif.Lemmas.Kernels

/-! Helper lemmas about buffers. -/

namespace Rawdio

variable {S : Type}

theorem sliceRange_ok {l : List S} {a b : Nat} (h : a ≤ b) (h2 : b ≤ l.length) :
    sliceRange l a b = .ok ((l.drop a).take (b - a)) := by
  simp [sliceRange, h, h2]

theorem slice_get? (l : List S) (a b i : Nat) :
    ((l.drop a).take (b - a))[i]? = if i < b - a then l[a + i]? else none := by
  rw [List.getElem?_take]
  simp only [List.getElem?_drop]

theorem splice_get? {l part : List S} {a b : Nat} (hab : a ≤ b) (hb : b ≤ l.length)
    (hp : part.length = b - a) (j : Nat) :
    (l.take a ++ part ++ l.drop b)[j]? =
      if j < a then l[j]? else if j < b then part[j - a]? else l[j]? := by
  have h1 : (l.take a).length = a := by simp; omega
  split_ifs with ha hjb
  · rw [List.append_assoc, List.getElem?_append_left (by omega)]
    simp [ha]
  · rw [List.append_assoc, List.getElem?_append_right (by omega),
      List.getElem?_append_left (by omega), h1]
  · rw [List.getElem?_append_right (by simp; omega), List.getElem?_drop]
    congr 1
    simp; omega

theorem modifyRange_ok {l : List S} {a b : Nat} {f : List S → Res (List S)} {part : List S}
    (hab : a ≤ b) (hb : b ≤ l.length) (hf : f ((l.drop a).take (b - a)) = .ok part) :
    modifyRange l a b f = .ok (l.take a ++ part ++ l.drop b) := by
  simp [modifyRange, sliceRange_ok hab hb, hf, bind, Except.bind, pure, Except.pure]

theorem index_lt {c cc fc f : Nat} (hc : c < cc) (hf : f ≤ fc) : c * fc + f ≤ cc * fc := by
  have : (c + 1) * fc ≤ cc * fc := Nat.mul_le_mul_right fc hc
  rw [Nat.succ_mul] at this
  omega

namespace Buf

theorem cc_owned (d : List S) (c f r : Nat) : (owned d c f r).channelCount = c := rfl
theorem fc_owned (d : List S) (c f r : Nat) : (owned d c f r).frameCount = f := rfl
theorem cc_slice (p : Buf S) (r : Range) (m : Bool) :
    (slice p r m).channelCount = r.channelCount := rfl
theorem fc_slice (p : Buf S) (r : Range) (m : Bool) : (slice p r m).frameCount = r.frameCount := rfl

theorem channelData_slice (p : Buf S) (r : Range) (m : Bool) (loc : Loc) :
    (slice p r m).channelData loc = (do
      let data ← p.channelData ⟨loc.channel + r.channel, loc.frame + r.frame⟩
      if loc.frame ≤ r.frameCount then sliceRange data 0 (r.frameCount - loc.frame)
      else .error .panic) := rfl

theorem modifyChannel_slice (p : Buf S) (r : Range) (loc : Loc) (f : List S → Res (List S)) :
    (slice p r true).modifyChannel loc f = (do
      let p ← p.modifyChannel ⟨loc.channel + r.channel, loc.frame + r.frame⟩
        (fun data =>
          if loc.frame ≤ r.frameCount then modifyRange data 0 (r.frameCount - loc.frame) f
          else .error .panic)
      return slice p r true) := rfl

theorem sample?_eq_none (b : Buf S) (c f : Nat) (h : ¬ (c < b.channelCount ∧ f < b.frameCount)) :
    b.sample? c f = none := by
  cases b <;> simp only [sample?, channelCount, frameCount] at * <;> simp [h]

theorem sample?_isSome (b : Buf S) (hw : b.WF) (c f : Nat) (hc : c < b.channelCount)
    (hf : f < b.frameCount) : ∃ v, b.sample? c f = some v := by
  induction b generalizing c f with
  | owned data cc fc sr =>
    simp only [cc_owned, fc_owned, cc_slice, fc_slice, WF] at *
    have := index_lt (f := f + 1) hc (show f + 1 ≤ fc by omega)
    refine ⟨data[c * fc + f]'(by omega), ?_⟩
    simp only [sample?, hc, hf, and_self, if_true]
    exact List.getElem?_eq_getElem _
  | slice p r m ih =>
    simp only [cc_owned, fc_owned, cc_slice, fc_slice, WF] at *
    obtain ⟨v, hv⟩ := ih hw.1 (c + r.channel) (f + r.frame) (by omega) (by omega)
    exact ⟨v, by simp [sample?, hc, hf, hv]⟩

theorem channelData_spec (b : Buf S) (hw : b.WF) (loc : Loc) (hc : loc.channel < b.channelCount)
    (hf : loc.frame ≤ b.frameCount) :
    ∃ l, b.channelData loc = .ok l ∧ l.length = b.frameCount - loc.frame ∧
      ∀ i, l[i]? = b.sample? loc.channel (loc.frame + i) := by
  induction b generalizing loc with
  | owned data cc fc sr =>
    simp only [cc_owned, fc_owned, cc_slice, fc_slice, WF] at *
    have h1 := index_lt (f := fc) hc le_rfl
    have h2 : (loc.channel + 1) * fc = loc.channel * fc + fc := Nat.succ_mul ..
    refine ⟨_, sliceRange_ok (by omega) (by omega), ?_, ?_⟩
    · simp only [List.length_take, List.length_drop]; omega
    · intro i
      rw [slice_get?]
      simp only [sample?, hc, true_and]
      split_ifs with ha hb
      · congr 1; omega
      · omega
      · omega
      · rfl
  | slice p r m ih =>
    simp only [cc_owned, fc_owned, cc_slice, fc_slice, WF] at *
    obtain ⟨l, hl, hlen, hget⟩ := ih hw.1 ⟨loc.channel + r.channel, loc.frame + r.frame⟩
      (by simp only; omega)
      (by simp only; omega)
    simp only at hlen hget
    refine ⟨l.take (r.frameCount - loc.frame), ?_, ?_, ?_⟩
    · simp only [channelData_slice, hl, bind, Except.bind, hf,
        if_true]
      rw [sliceRange_ok (by omega) (by omega)]
      simp
    · simp only [List.length_take]; omega
    · intro i
      rw [List.getElem?_take, hget]
      simp only [sample?, hc, true_and]
      split_ifs with ha hb
      · congr 1; omega
      · omega
      · omega
      · rfl

theorem SameShape.refl (b : Buf S) : b.SameShape b := by
  induction b with
  | owned => simp [SameShape]
  | slice p r m ih => simp [SameShape, ih]

theorem SameShape.trans {a b c : Buf S} (h1 : a.SameShape b) (h2 : b.SameShape c) :
    a.SameShape c := by
  induction a generalizing b c with
  | owned =>
    cases b <;> cases c <;> simp only [SameShape] at *
    exact ⟨h1.1.trans h2.1, h1.2.1.trans h2.2.1, h1.2.2.trans h2.2.2⟩
  | slice p r m ih =>
    cases b <;> cases c <;> simp only [SameShape] at *
    exact ⟨ih h1.1 h2.1, h1.2.1.trans h2.2.1, h1.2.2.trans h2.2.2⟩

theorem SameShape.channelCount {a b : Buf S} (h : a.SameShape b) :
    a.channelCount = b.channelCount := by
  cases a <;> cases b <;> simp only [SameShape, Buf.channelCount] at *
  · exact h.1
  · rw [h.2.1]

theorem SameShape.frameCount {a b : Buf S} (h : a.SameShape b) :
    a.frameCount = b.frameCount := by
  cases a <;> cases b <;> simp only [SameShape, Buf.frameCount] at *
  · exact h.2.1
  · rw [h.2.1]

theorem SameShape.sampleRate {a b : Buf S} (h : a.SameShape b) :
    a.sampleRate = b.sampleRate := by
  induction a generalizing b with
  | owned => cases b <;> simp only [SameShape, Buf.sampleRate] at *; exact h.2.2
  | slice p r m ih => cases b <;> simp only [SameShape, Buf.sampleRate] at *; exact ih h.1

/-- The effect of writing through `get_channel_data_mut`: exactly the channel from the given frame
on is replaced. -/
theorem modifyChannel_spec (b : Buf S) (hw : b.WF) (hm : b.Writable) (loc : Loc)
    (hc : loc.channel < b.channelCount) (hf : loc.frame ≤ b.frameCount)
    (g : List S → Res (List S)) (l l' : List S) (hl : b.channelData loc = .ok l)
    (hg : g l = .ok l') (hlen : l'.length = l.length) :
    ∃ b', b.modifyChannel loc g = .ok b' ∧ b.SameShape b' ∧ b'.WF ∧ b'.Writable ∧
      ∀ c f, b'.sample? c f =
        if c = loc.channel ∧ loc.frame ≤ f ∧ f < b.frameCount then l'[f - loc.frame]?
        else b.sample? c f := by
  induction b generalizing loc g l l' with
  | owned data cc fc sr =>
    simp only [cc_owned, fc_owned, cc_slice, fc_slice, WF] at *
    have h1 := index_lt (f := fc) hc le_rfl
    have h2 : (loc.channel + 1) * fc = loc.channel * fc + fc := Nat.succ_mul ..
    have hs : sliceRange data (loc.channel * fc + loc.frame) ((loc.channel + 1) * fc) =
        .ok ((data.drop (loc.channel * fc + loc.frame)).take
          ((loc.channel + 1) * fc - (loc.channel * fc + loc.frame))) :=
      sliceRange_ok (by omega) (by omega)
    simp only [channelData] at hl
    rw [hs] at hl
    injection hl with hl
    subst hl
    have hlen' : l'.length = (loc.channel + 1) * fc - (loc.channel * fc + loc.frame) := by
      rw [hlen]; simp only [List.length_take, List.length_drop]; omega
    refine ⟨Buf.owned (data.take (loc.channel * fc + loc.frame) ++ l' ++
        data.drop ((loc.channel + 1) * fc)) cc fc sr, ?_, ?_, ?_, ?_, ?_⟩
    · simp only [modifyChannel]
      rw [modifyRange_ok (by omega) (by omega) hg]
      rfl
    · simp [SameShape]
    · simp only [WF, List.length_append, List.length_take, List.length_drop, hlen']
      omega
    · trivial
    · intro c f
      simp only [sample?]
      rw [splice_get? (by omega) (by omega) hlen']
      by_cases hcf : c < cc ∧ f < fc
      · simp only [hcf, and_self, if_true]
        by_cases hcc : c = loc.channel
        · subst hcc
          by_cases hff : loc.frame ≤ f
          · rw [if_neg (by omega), if_pos (by omega), if_pos ⟨rfl, hff, trivial⟩]
            congr 1; omega
          · rw [if_pos (by omega), if_neg (by omega)]
        · simp only [hcc, false_and, if_false]
          rcases Nat.lt_or_gt_of_ne hcc with h | h
          · have := Nat.mul_le_mul_right fc (show c + 1 ≤ loc.channel from h)
            rw [Nat.succ_mul] at this
            rw [if_pos (by omega)]
          · have := Nat.mul_le_mul_right fc (show loc.channel + 1 ≤ c from h)
            rw [if_neg (by omega), if_neg (by omega)]
      · simp only [hcf, if_false]
        rw [if_neg]
        rintro ⟨rfl, _, h⟩
        exact hcf ⟨hc, h⟩
  | slice p r m ih =>
    simp only [cc_owned, fc_owned, cc_slice, fc_slice, WF, Writable] at *
    obtain ⟨rfl, hpm⟩ := hm
    obtain ⟨lp, hlp, hlplen, hlpget⟩ := channelData_spec p hw.1
      ⟨loc.channel + r.channel, loc.frame + r.frame⟩
      (by simp only; omega)
      (by simp only; omega)
    simp only [channelData_slice, hlp, bind, Except.bind, hf, if_true] at hl
    simp only at hlplen hlpget
    rw [sliceRange_ok (by omega) (by omega)] at hl
    injection hl with hl
    have hmr : modifyRange lp 0 (r.frameCount - loc.frame) g =
        .ok (lp.take 0 ++ l' ++ lp.drop (r.frameCount - loc.frame)) :=
      modifyRange_ok (by omega) (by omega) (by rw [hl]; exact hg)
    have hl'len : l'.length = r.frameCount - loc.frame := by
      rw [hlen, ← hl]; simp only [List.length_take, List.length_drop]; omega
    obtain ⟨p', hp', hsh, hwf, hwr, hget⟩ := ih hw.1 hpm
      ⟨loc.channel + r.channel, loc.frame + r.frame⟩
      (by simp only; omega)
      (by simp only; omega)
      (fun data => if loc.frame ≤ r.frameCount then
          modifyRange data 0 (r.frameCount - loc.frame) g else .error .panic)
      lp (lp.take 0 ++ l' ++ lp.drop (r.frameCount - loc.frame)) hlp
      (by simp only [hf, if_true]; exact hmr)
      (by simp only [List.length_append, List.length_take, List.length_drop, hl'len]; omega)
    refine ⟨.slice p' r true, ?_, ⟨hsh, rfl, rfl⟩, ⟨hwf, ?_, ?_⟩, ⟨rfl, hwr⟩, ?_⟩
    · simp only [modifyChannel_slice, hp', bind, Except.bind, pure, Except.pure]
    · rw [← hsh.channelCount]; exact hw.2.1
    · rw [← hsh.frameCount]; exact hw.2.2
    · intro c f
      simp only [sample?]
      by_cases hcf : c < r.channelCount ∧ f < r.frameCount
      · simp only [hcf, and_self, if_true, hget]
        by_cases hcc : c = loc.channel ∧ loc.frame ≤ f
        · rw [if_pos ⟨by omega, by omega, by omega⟩, if_pos ⟨hcc.1, hcc.2, trivial⟩]
          rw [splice_get? (Nat.zero_le _) (by omega) (by omega)]
          rw [if_neg (by omega), if_pos (by omega)]
          congr 1; omega
        · rw [if_neg (by omega), if_neg (fun h => hcc ⟨h.1, h.2.1⟩)]
      · simp only [hcf, if_false]
        rw [if_neg]
        rintro ⟨rfl, _, h⟩
        exact hcf ⟨hc, h⟩

/-- Changing the first `n` samples at a location. -/
theorem modifyPart_spec (b : Buf S) (hw : b.WF) (hm : b.Writable) (loc : Loc)
    (hc : loc.channel < b.channelCount) (n : Nat) (hf : loc.frame + n ≤ b.frameCount)
    (g : List S → List S) (hlen : ∀ l : List S, l.length = n → (g l).length = n) :
    ∃ l : List S, l.length = n ∧ (∀ i, i < n → l[i]? = b.sample? loc.channel (loc.frame + i)) ∧
    ∃ b', b.modifyPart loc n g = .ok b' ∧ b.SameShape b' ∧ b'.WF ∧ b'.Writable ∧
      ∀ c f, b'.sample? c f =
        if c = loc.channel ∧ loc.frame ≤ f ∧ f < loc.frame + n then (g l)[f - loc.frame]?
        else b.sample? c f := by
  obtain ⟨l, hl, hll, hget⟩ := channelData_spec b hw loc hc (by omega)
  have hln : (l.take n).length = n := by simp only [List.length_take]; omega
  obtain ⟨b', hb', hsh, hwf, hwr, hs⟩ := modifyChannel_spec b hw hm loc hc (by omega)
    (fun data => modifyRange data 0 n (fun part => .ok (g part))) l
    (l.take 0 ++ g (l.take n) ++ l.drop n) hl
    (by
      have := modifyRange_ok (l := l) (a := 0) (b := n) (f := fun part => .ok (g part))
        (part := g (l.take n)) (Nat.zero_le _) (by omega) (by simp)
      simpa using this)
    (by simp only [List.length_append, List.length_take, List.length_drop, hlen _ hln]; omega)
  refine ⟨l.take n, hln, ?_, b', hb', hsh, hwf, hwr, ?_⟩
  · intro i hi
    rw [List.getElem?_take, if_pos hi, hget]
  · intro c f
    rw [hs]
    have hgl : (g (l.take n)).length = n - 0 := by rw [hlen _ hln]; rfl
    by_cases hcf : c = loc.channel ∧ loc.frame ≤ f ∧ f < b.frameCount
    · rw [if_pos hcf, splice_get? (Nat.zero_le _) (by omega) hgl]
      by_cases hfn : f < loc.frame + n
      · rw [if_neg (by omega), if_pos (by omega), if_pos ⟨hcf.1, hcf.2.1, hfn⟩]
        rfl
      · rw [if_neg (by omega), if_neg (by omega), if_neg (by omega), hget, hcf.1]
        congr 1; omega
    · rw [if_neg hcf, if_neg (by omega)]

/-- The effect of a loop over channels that changes the same region of each of them. -/
theorem region_spec (b : Buf S) (hw : b.WF) (hm : b.Writable) (loc : Loc) (N n : Nat)
    (hc : loc.channel + N ≤ b.channelCount) (hf : loc.frame + n ≤ b.frameCount)
    (step : Buf S → Nat → Res (Buf S)) (op : Nat → List S → List S)
    (ψ : Nat → Nat → Option S → Option S)
    (hstep : ∀ b' c, c < N → b.SameShape b' →
      step b' c = b'.modifyPart ⟨loc.channel + c, loc.frame⟩ n (op c))
    (hlen : ∀ c, c < N → ∀ l : List S, l.length = n → (op c l).length = n)
    (hop : ∀ c, c < N → ∀ l : List S, l.length = n → ∀ i, i < n → (op c l)[i]? = ψ c i l[i]?) :
    ∃ b', (List.range N).foldlM step b = .ok b' ∧ b.SameShape b' ∧ b'.WF ∧ b'.Writable ∧
      ∀ c f, b'.sample? c f =
        if loc.channel ≤ c ∧ c < loc.channel + N ∧ loc.frame ≤ f ∧ f < loc.frame + n then
          ψ (c - loc.channel) (f - loc.frame) (b.sample? c f)
        else b.sample? c f := by
  induction N with
  | zero =>
    refine ⟨b, rfl, SameShape.refl b, hw, hm, ?_⟩
    intro c f
    rw [if_neg (by omega)]
  | succ N ih =>
    obtain ⟨b1, h1, hsh, hw1, hm1, hs1⟩ := ih (by omega)
      (fun b' c h hs => hstep b' c (by omega) hs)
      (fun c h => hlen c (by omega)) (fun c h => hop c (by omega))
    obtain ⟨l, hl, hget, b2, h2, hsh2, hw2, hm2, hs2⟩ := modifyPart_spec b1 hw1 hm1
      ⟨loc.channel + N, loc.frame⟩ (by rw [← hsh.channelCount]; simp only; omega) n
      (by rw [← hsh.frameCount]; exact hf) (op N) (hlen N (by omega))
    refine ⟨b2, ?_, hsh.trans hsh2, hw2, hm2, ?_⟩
    · rw [List.range_succ, List.foldlM_append, h1]
      simp only [List.foldlM_cons, List.foldlM_nil, bind, Except.bind]
      rw [hstep b1 N (by omega) hsh, h2]
      rfl
    · intro c f
      rw [hs2]
      simp only
      by_cases hcc : c = loc.channel + N
      · subst hcc
        by_cases hff : loc.frame ≤ f ∧ f < loc.frame + n
        · rw [if_pos ⟨rfl, hff⟩, if_pos (by omega), hop N (by omega) l hl _ (by omega),
            hget _ (by omega), hs1]
          simp only
          rw [if_neg (by omega)]
          congr 1
          · omega
          · congr 1; omega
        · rw [if_neg (by omega), if_neg (by omega), hs1, if_neg (by omega)]
      · rw [if_neg (by omega), hs1]
        by_cases hreg : loc.channel ≤ c ∧ c < loc.channel + N ∧ loc.frame ≤ f ∧ f < loc.frame + n
        · rw [if_pos hreg, if_pos (by omega)]
        · rw [if_neg hreg, if_neg (by omega)]

/-- Reading `n` samples of a channel of a buffer, as the loops of `copy_from` and `add_from` do. -/
theorem readPart_spec (b : Buf S) (hw : b.WF) (loc : Loc) (hc : loc.channel < b.channelCount)
    (n : Nat) (hf : loc.frame + n ≤ b.frameCount) :
    ∃ l l', b.channelData loc = .ok l ∧ sliceRange l 0 n = .ok l' ∧ l'.length = n ∧
      ∀ i, i < n → l'[i]? = b.sample? loc.channel (loc.frame + i) := by
  obtain ⟨l, hl, hlen, hget⟩ := channelData_spec b hw loc hc (by omega)
  refine ⟨l, l.take n, hl, ?_, ?_, ?_⟩
  · rw [sliceRange_ok (Nat.zero_le _) (by omega)]; simp
  · simp only [List.length_take]; omega
  · intro i hi
    rw [List.getElem?_take, if_pos hi, hget]

theorem new_wf [Zero S] (fc cc sr : Nat) : (new fc cc sr : Buf S).WF := by
  simp only [new, WF, List.length_replicate]; exact Nat.mul_comm ..

theorem new_sample? [Zero S] (fc cc sr c f : Nat) :
    (new fc cc sr : Buf S).sample? c f = if c < cc ∧ f < fc then some 0 else none := by
  simp only [new, sample?]
  split_ifs with h
  · have := index_lt (f := f + 1) h.1 (show f + 1 ≤ fc by omega)
    have h2 : cc * fc = fc * cc := Nat.mul_comm ..
    rw [List.getElem?_replicate, if_pos (by omega)]
  · rfl

end Buf
end Rawdio
