import Verif.Lemmas.Buffer

/-! Helper lemmas about whole-buffer operations. -/

namespace Rawdio
namespace Buf

variable {S : Type}

theorem getSample_eq (b : Buf S) (hw : b.WF) (c f : Nat) (hc : c < b.channelCount)
    (hf : f < b.frameCount) : ∃ v, b.sample? c f = some v ∧ b.getSample ⟨c, f⟩ = .ok v := by
  obtain ⟨v, hv⟩ := sample?_isSome b hw c f hc hf
  obtain ⟨l, hl, hlen, hget⟩ := channelData_spec b hw ⟨c, f⟩ hc (by simp only; omega)
  refine ⟨v, hv, ?_⟩
  have h0 := hget 0
  simp only [Nat.add_zero, hv] at h0
  cases l with
  | nil => simp at h0
  | cons x xs =>
    simp only [List.getElem?_cons_zero, Option.some.injEq] at h0
    simp [getSample, hl, bind, Except.bind, firstOf, h0]

theorem copyFrom_spec (dst src : Buf S) (hd : dst.WF) (hm : dst.Writable) (hs : src.WF)
    (sl dl : Loc) (N n : Nat)
    (h1 : sl.channel + N ≤ src.channelCount) (h2 : sl.frame + n ≤ src.frameCount)
    (h3 : dl.channel + N ≤ dst.channelCount) (h4 : dl.frame + n ≤ dst.frameCount) :
    ∃ b', dst.copyFrom src sl dl N n = .ok b' ∧ dst.SameShape b' ∧ b'.WF ∧ b'.Writable ∧
      ∀ c f, b'.sample? c f =
        if dl.channel ≤ c ∧ c < dl.channel + N ∧ dl.frame ≤ f ∧ f < dl.frame + n then
          src.sample? (sl.channel + (c - dl.channel)) (sl.frame + (f - dl.frame))
        else dst.sample? c f := by
  have hread : ∀ c, ∃ l l' : List S, c < N → (src.channelData ⟨sl.channel + c, sl.frame⟩ = .ok l ∧
      sliceRange l 0 n = .ok l' ∧ l'.length = n ∧
      ∀ i, i < n → l'[i]? = src.sample? (sl.channel + c) (sl.frame + i)) := by
    intro c
    by_cases hc : c < N
    · obtain ⟨l, l', h⟩ := readPart_spec src hs ⟨sl.channel + c, sl.frame⟩ (by simp only; omega) n h2
      exact ⟨l, l', fun _ => h⟩
    · exact ⟨[], [], fun h => absurd h hc⟩
  choose L L' hL using hread
  refine region_spec dst hd hm dl N n h3 h4 _ (fun c _ => L' c)
    (fun c i _ => src.sample? (sl.channel + c) (sl.frame + i)) ?_ ?_ ?_
  · intro b c hc _
    obtain ⟨a1, a2, _, _⟩ := hL c hc
    simp only [Loc.offsetChannels, a1, a2, bind, Except.bind]
  · intro c hc l hl; exact (hL c hc).2.2.1
  · intro c hc l hl i hi; exact (hL c hc).2.2.2 i hi

theorem addLike_spec (dst src : Buf S) (hd : dst.WF) (hm : dst.Writable) (hs : src.WF)
    (sl dl : Loc) (N n : Nat) (g : S → S → S) (pres : Nat → Nat × Nat)
    (h1 : sl.channel + N ≤ src.channelCount) (h2 : sl.frame + n ≤ src.frameCount)
    (h3 : dl.channel + N ≤ dst.channelCount) (h4 : dl.frame + n ≤ dst.frameCount) :
    ∃ b', (List.range N).foldlM
        (fun (dst : Buf S) c => do
          let source ← src.channelData (sl.offsetChannels c)
          let source ← sliceRange source 0 n
          dst.modifyPart (dl.offsetChannels c) n
            (fun destination => Kernels.kernel2 g (pres c).1 (pres c).2 source destination)) dst
          = .ok b' ∧ dst.SameShape b' ∧ b'.WF ∧ b'.Writable ∧
      ∀ c f, b'.sample? c f =
        if dl.channel ≤ c ∧ c < dl.channel + N ∧ dl.frame ≤ f ∧ f < dl.frame + n then
          (src.sample? (sl.channel + (c - dl.channel)) (sl.frame + (f - dl.frame))).bind
            (fun s => (dst.sample? c f).map (fun d => g s d))
        else dst.sample? c f := by
  have hread : ∀ c, ∃ l l' : List S, c < N → (src.channelData ⟨sl.channel + c, sl.frame⟩ = .ok l ∧
      sliceRange l 0 n = .ok l' ∧ l'.length = n ∧
      ∀ i, i < n → l'[i]? = src.sample? (sl.channel + c) (sl.frame + i)) := by
    intro c
    by_cases hc : c < N
    · obtain ⟨l, l', h⟩ := readPart_spec src hs ⟨sl.channel + c, sl.frame⟩ (by simp only; omega) n h2
      exact ⟨l, l', fun _ => h⟩
    · exact ⟨[], [], fun h => absurd h hc⟩
  choose L L' hL using hread
  refine region_spec dst hd hm dl N n h3 h4 _
    (fun c d => Kernels.kernel2 g (pres c).1 (pres c).2 (L' c) d)
    (fun c i o => (src.sample? (sl.channel + c) (sl.frame + i)).bind (fun s => o.map (g s)))
    ?_ ?_ ?_
  · intro b c hc _
    obtain ⟨a1, a2, _, _⟩ := hL c hc
    simp only [Loc.offsetChannels, a1, a2, bind, Except.bind]
  · intro c hc l hl
    obtain ⟨_, _, a3, _⟩ := hL c hc
    simp only [Kernels.kernel2_eq _ _ _ _ _ (a3.trans hl.symm), Kernels.length_zipInto, hl]
  · intro c hc l hl i hi
    obtain ⟨_, _, a3, a4⟩ := hL c hc
    rw [Kernels.kernel2_eq _ _ _ _ _ (a3.trans hl.symm),
      Kernels.zipInto_get _ _ _ (a3.trans hl.symm) i (by omega), ← a4 i hi,
      List.getElem?_eq_getElem (by omega), List.getElem?_eq_getElem (by omega)]
    rfl

/-- Every fault of a buffer operation is a panic. -/
theorem sliceRange_error {l : List S} {a b : Nat} {e : Fault} (h : sliceRange l a b = .error e) :
    e = .panic := by
  simp only [sliceRange] at h
  split_ifs at h
  injection h with h; exact h.symm

theorem channelData_error {b : Buf S} {loc : Loc} {e : Fault} (h : b.channelData loc = .error e) :
    e = .panic := by
  induction b generalizing loc with
  | owned => exact sliceRange_error h
  | slice p r m ih =>
    rw [channelData_slice] at h
    cases hp : p.channelData ⟨loc.channel + r.channel, loc.frame + r.frame⟩ with
    | error e' =>
      simp only [hp, bind, Except.bind] at h
      injection h with h; subst h; exact ih hp
    | ok l =>
      simp only [hp, bind, Except.bind] at h
      split_ifs at h
      · exact sliceRange_error h
      · injection h with h; exact h.symm

theorem modifyRange_error {l : List S} {a b : Nat} {f : List S → Res (List S)} {e : Fault}
    (hf : ∀ l e, f l = .error e → e = .panic) (h : modifyRange l a b f = .error e) :
    e = .panic := by
  simp only [modifyRange, bind, Except.bind, pure, Except.pure] at h
  cases h1 : sliceRange l a b with
  | error e' => rw [h1] at h; injection h with h; subst h; exact sliceRange_error h1
  | ok l1 =>
    rw [h1] at h
    simp only at h
    cases h2 : f l1 with
    | error e' => rw [h2] at h; injection h with h; subst h; exact hf _ _ h2
    | ok l2 => rw [h2] at h; cases h

theorem modifyChannel_error {b : Buf S} {loc : Loc} {f : List S → Res (List S)} {e : Fault}
    (hf : ∀ l e, f l = .error e → e = .panic) (h : b.modifyChannel loc f = .error e) :
    e = .panic := by
  induction b generalizing loc f with
  | owned data cc fc sr =>
    simp only [modifyChannel, bind, Except.bind, pure, Except.pure] at h
    cases h1 : modifyRange data (loc.channel * fc + loc.frame) ((loc.channel + 1) * fc) f with
    | error e' => rw [h1] at h; injection h with h; subst h; exact modifyRange_error hf h1
    | ok l1 => rw [h1] at h; cases h
  | slice p r m ih =>
    cases m with
    | false => simp only [modifyChannel] at h; injection h with h; exact h.symm
    | true =>
      rw [modifyChannel_slice] at h
      simp only [bind, Except.bind, pure, Except.pure] at h
      split at h
      · rename_i e' h1
        injection h with h; subst h
        refine ih ?_ h1
        intro l e'' h3
        split_ifs at h3
        · exact modifyRange_error hf h3
        · injection h3 with h3; exact h3.symm
      · cases h

theorem modifyPart_error {b : Buf S} {loc : Loc} {n : Nat} {g : List S → List S} {e : Fault}
    (h : b.modifyPart loc n g = .error e) : e = .panic := by
  refine modifyChannel_error ?_ h
  intro l e' h'
  exact modifyRange_error (by intro l e h; cases h) h'

theorem foldlM_error {α : Type} {step : α → Nat → Res α} (l : List Nat) (a : α) {e : Fault}
    (hs : ∀ a c e, step a c = .error e → e = .panic) (h : l.foldlM step a = .error e) :
    e = .panic := by
  induction l generalizing a with
  | nil => cases h
  | cons x xs ih =>
    simp only [List.foldlM_cons, bind, Except.bind] at h
    cases h1 : step a x with
    | error e' => rw [h1] at h; injection h with h; subst h; exact hs _ _ _ h1
    | ok a' => rw [h1] at h; exact ih _ h

theorem owned_range_ok {data : List S} {cc fc : Nat} (hw : data.length = cc * fc) {loc : Loc}
    {l l' : List S} {n : Nat} (hn : 0 < n)
    (h1 : sliceRange data (loc.channel * fc + loc.frame) ((loc.channel + 1) * fc) = .ok l)
    (h2 : sliceRange l 0 n = .ok l') : loc.channel < cc ∧ loc.frame + n ≤ fc := by
  simp only [sliceRange] at h1 h2
  split_ifs at h1 h2 with a b
  injection h1 with h1
  have hl : l.length = (loc.channel + 1) * fc - (loc.channel * fc + loc.frame) := by
    rw [← h1]; simp only [List.length_take, List.length_drop]; omega
  have h3 : (loc.channel + 1) * fc = loc.channel * fc + fc := Nat.succ_mul ..
  refine ⟨?_, by omega⟩
  by_contra hcc
  have := Nat.mul_le_mul_right fc (show cc ≤ loc.channel by omega)
  omega

theorem owned_modifyPart_ok {data : List S} {cc fc sr : Nat} (hw : data.length = cc * fc)
    {loc : Loc} {n : Nat} {g : List S → List S} {b' : Buf S} (hn : 0 < n)
    (h : (owned data cc fc sr).modifyPart loc n g = .ok b') :
    loc.channel < cc ∧ loc.frame + n ≤ fc := by
  simp only [modifyPart, modifyChannel, modifyRange, bind, Except.bind, pure, Except.pure] at h
  cases h1 : sliceRange data (loc.channel * fc + loc.frame) ((loc.channel + 1) * fc) with
  | error e => rw [h1] at h; cases h
  | ok l =>
    rw [h1] at h
    simp only at h
    cases h2 : sliceRange l 0 n with
    | error e => rw [h2] at h; cases h
    | ok l' => exact owned_range_ok hw hn h1 h2

theorem foldlM_range_ok {α : Type} {step : α → Nat → Res α} (N : Nat) (a b : α)
    (h : (List.range N).foldlM step a = .ok b) (P : α → Prop) (ha : P a)
    (hP : ∀ a c a', P a → step a c = .ok a' → P a') :
    P b ∧ ∀ c, c < N → ∃ a1 a2, P a1 ∧ step a1 c = .ok a2 := by
  induction N generalizing b with
  | zero =>
    simp only [List.range_zero, List.foldlM_nil, pure, Except.pure] at h
    injection h with h; subst h
    exact ⟨ha, fun c hc => absurd hc (Nat.not_lt_zero c)⟩
  | succ N ih =>
    rw [List.range_succ, List.foldlM_append] at h
    cases h1 : (List.range N).foldlM step a with
    | error e => rw [h1] at h; simp only [bind, Except.bind] at h; cases h
    | ok a1 =>
      rw [h1] at h
      simp only [List.foldlM_cons, List.foldlM_nil, bind, Except.bind, pure, Except.pure] at h
      obtain ⟨hp, hall⟩ := ih a1 h1
      cases h2 : step a1 N with
      | error e => rw [h2] at h; cases h
      | ok a2 =>
        rw [h2] at h
        injection h with h; subst h
        refine ⟨hP _ _ _ hp h2, ?_⟩
        intro c hc
        by_cases hcN : c = N
        · subst hcN; exact ⟨a1, a2, hp, h2⟩
        · exact hall c (by omega)

/-- An owned buffer stays an owned buffer of the same size when part of it is changed. -/
theorem owned_modifyPart_shape {data : List S} {cc fc sr : Nat} (hw : data.length = cc * fc)
    {loc : Loc} {n : Nat} {g : List S → List S} (hg : ∀ l : List S, l.length = n → (g l).length = n)
    {b' : Buf S} (hn : 0 < n)
    (h : (owned data cc fc sr).modifyPart loc n g = .ok b') :
    ∃ data', b' = owned data' cc fc sr ∧ data'.length = cc * fc := by
  obtain ⟨h1, h2⟩ := owned_modifyPart_ok hw hn h
  obtain ⟨_, _, _, b2, hb2, hsh, hw2, _⟩ := modifyPart_spec (owned data cc fc sr) hw trivial loc h1 n
    h2 g hg
  rw [h] at hb2
  injection hb2 with hb2; subst hb2
  cases b' with
  | owned d c f r =>
    simp only [SameShape] at hsh
    obtain ⟨rfl, rfl, rfl⟩ := hsh
    exact ⟨d, rfl, hw2⟩
  | slice => simp [SameShape] at hsh

/-- Only the behaviour on the actual channel data matters. -/
theorem modifyChannel_congr (p : Buf S) (loc : Loc) (l : List S) (hl : p.channelData loc = .ok l)
    (g₁ g₂ : List S → Res (List S)) (h : g₁ l = g₂ l) :
    p.modifyChannel loc g₁ = p.modifyChannel loc g₂ := by
  induction p generalizing loc l g₁ g₂ with
  | owned data cc fc sr =>
    simp only [channelData] at hl
    simp only [modifyChannel, modifyRange, hl, bind, Except.bind, h]
  | slice q r' m ih =>
    cases m with
    | false => rfl
    | true =>
      rw [channelData_slice] at hl
      rw [modifyChannel_slice, modifyChannel_slice]
      cases hq : q.channelData ⟨loc.channel + r'.channel, loc.frame + r'.frame⟩ with
      | error e => rw [hq] at hl; simp only [bind, Except.bind] at hl; cases hl
      | ok lq =>
        rw [hq] at hl
        simp only [bind, Except.bind] at hl
        rw [ih _ lq hq]
        split_ifs at hl ⊢ with hle
        simp only [modifyRange, hl, bind, Except.bind, h]

end Buf
end Rawdio
