import Mathlib.Tactic.Linarith
import Mathlib.Tactic.Ring
import Verif.Model.Waveshaper
import Verif.Spec.Waveshaper
import Verif.Props.Buffers
import Verif.Lemmas.Buffer3

/-! # Lemmas on sample rate conversion and interpolation -/

namespace Rawdio

theorem mapM_ok {A B : Type} (f : A → Res B) (g : A → B) (l : List A) (h : ∀ a ∈ l, f a = .ok (g a)) :
    l.mapM f = .ok (l.map g) := by
  induction l with
  | nil => rfl
  | cons a l ih =>
    rw [List.mapM_cons, h a List.mem_cons_self]
    simp only [bind, Except.bind]
    rw [ih (fun b hb => h b (List.mem_cons_of_mem _ hb))]
    rfl

namespace Buf

variable {S : Type}

theorem convertSample_ok (blend : ℝ → S → S → S) (source : List S) (ratio : ℝ) (i : Nat) (h : 0 < source.length) :
    convertSample blend source ratio i = .ok (blend ((i : ℝ) * ratio - ⌊(i : ℝ) * ratio⌋₊)
      (source[min ⌊(i : ℝ) * ratio⌋₊ (source.length - 1)]'(by omega))
      (source[min ⌈(i : ℝ) * ratio⌉₊ (source.length - 1)]'(by omega))) := by
  unfold convertSample
  rw [if_neg (by omega)]
  simp only [bind, Except.bind, pure, Except.pure]
  rw [index_ok (by omega), index_ok (by omega)]

/-- The contents after a conversion. -/
noncomputable def convertedAt (blend : ℝ → S → S → S) (src : Buf S) (srcLoc : Loc) (ratio : ℝ) (k i : Nat) : Option S := do
  let before ← src.sample? (srcLoc.channel + k)
    (srcLoc.frame + min ⌊(i : ℝ) * ratio⌋₊ (src.frameCount - srcLoc.frame - 1))
  let after ← src.sample? (srcLoc.channel + k)
    (srcLoc.frame + min ⌈(i : ℝ) * ratio⌉₊ (src.frameCount - srcLoc.frame - 1))
  return blend ((i : ℝ) * ratio - ⌊(i : ℝ) * ratio⌋₊) before after

theorem convert_spec (blend : ℝ → S → S → S) (dst src : Buf S) (srcLoc dstLoc : Loc) (n : Nat)
    (hs : src.WF) (hd : dst.WF) (hw : dst.Writable) (hsc : srcLoc.channel + n ≤ src.channelCount)
    (hsf : srcLoc.frame < src.frameCount) (hdc : dstLoc.channel + n ≤ dst.channelCount)
    (hdf : dstLoc.frame ≤ dst.frameCount) :
    ∃ out, dst.sampleRateConvertFrom blend src srcLoc dstLoc n = .ok out ∧ dst.SameShape out ∧ out.WF ∧ out.Writable ∧
      ∀ c f, out.sample? c f =
        if (dstLoc.channel ≤ c ∧ c < dstLoc.channel + n) ∧ dstLoc.frame ≤ f ∧ f < dst.frameCount then
          convertedAt blend src srcLoc ((src.sampleRate : ℝ) / dst.sampleRate) (c - dstLoc.channel) (f - dstLoc.frame)
        else dst.sample? c f := by
  unfold sampleRateConvertFrom
  simp only
  generalize (src.sampleRate : ℝ) / dst.sampleRate = ratio
  induction n with
  | zero =>
    refine ⟨dst, rfl, SameShape.refl _, hd, hw, ?_⟩
    intro c f
    rw [if_neg (by omega)]
  | succ n ih =>
    obtain ⟨b, e1, e2, e3, e4, e5⟩ := ih (by omega) (by omega)
    have hcc := e2.channelCount
    have hfc := e2.frameCount
    obtain ⟨s, s1, s2, s3⟩ := channelData_spec src hs (srcLoc.offsetChannels n)
      (by simp only [Loc.offsetChannels]; omega) (by simp only [Loc.offsetChannels]; omega)
    obtain ⟨l, l1, l2, l3⟩ := channelData_spec b e3 (dstLoc.offsetChannels n)
      (by simp only [Loc.offsetChannels]; omega) (by simp only [Loc.offsetChannels]; omega)
    simp only [Loc.offsetChannels] at s2 s3 l2 l3
    have hsl : 0 < s.length := by omega
    obtain ⟨b', m1, m2, m3, m4, m5⟩ := modifyChannel_spec b e3 e4 (dstLoc.offsetChannels n)
      (by simp only [Loc.offsetChannels]; omega) (by simp only [Loc.offsetChannels]; omega)
      (fun data => (List.range data.length).mapM (convertSample blend s ratio)) l
      ((List.range l.length).map (fun (i : Nat) => blend ((i : ℝ) * ratio - ⌊(i : ℝ) * ratio⌋₊)
        (s[min ⌊(i : ℝ) * ratio⌋₊ (s.length - 1)]'(by omega))
        (s[min ⌈(i : ℝ) * ratio⌉₊ (s.length - 1)]'(by omega)))) l1
      (mapM_ok _ _ _ (fun i _ => convertSample_ok blend s ratio i hsl)) (by simp)
    refine ⟨b', ?_, e2.trans m2, m3, m4, ?_⟩
    · rw [List.range_succ, List.foldlM_append, e1]
      simp only [List.foldlM_cons, List.foldlM_nil, bind_pure]
      simp only [bind, Except.bind, s1, m1]
    · intro c f
      rw [show b'.sample? c f = if c = dstLoc.channel + n ∧ dstLoc.frame ≤ f ∧ f < b.frameCount then _
        else b.sample? c f from m5 c f]
      simp only [show (dstLoc.offsetChannels n).frame = dstLoc.frame from rfl]
      by_cases hc : c = dstLoc.channel + n
      · by_cases hf : dstLoc.frame ≤ f ∧ f < dst.frameCount
        · have h1 : c = dstLoc.channel + n ∧ dstLoc.frame ≤ f ∧ f < b.frameCount := by omega
          have h2 : (dstLoc.channel ≤ c ∧ c < dstLoc.channel + (n + 1)) ∧ dstLoc.frame ≤ f ∧ f < dst.frameCount := by
            omega
          rw [if_pos h1, if_pos h2]
          rw [List.getElem?_map, List.getElem?_range (by omega)]
          unfold convertedAt
          have hk : c - dstLoc.channel = n := by omega
          rw [hk, ← s2, ← s3, ← s3]
          rw [List.getElem?_eq_getElem (by omega), List.getElem?_eq_getElem (by omega)]
          rfl
        · have h1 : ¬ (c = dstLoc.channel + n ∧ dstLoc.frame ≤ f ∧ f < b.frameCount) := by omega
          have h2 : ¬ ((dstLoc.channel ≤ c ∧ c < dstLoc.channel + (n + 1)) ∧ dstLoc.frame ≤ f ∧ f < dst.frameCount) := by
            omega
          rw [if_neg h1, if_neg h2, e5, if_neg (by omega)]
      · have h1 : ¬ (c = dstLoc.channel + n ∧ dstLoc.frame ≤ f ∧ f < b.frameCount) := by omega
        rw [if_neg h1, e5]
        have : (c < dstLoc.channel + n ↔ c < dstLoc.channel + (n + 1)) := by omega
        simp only [this]

/-- An empty source. -/
theorem convert_empty (blend : ℝ → S → S → S) (dst src : Buf S) (srcLoc dstLoc : Loc) (n : Nat)
    (hs : src.WF) (hd : dst.WF) (hw : dst.Writable) (hsc : srcLoc.channel < src.channelCount)
    (hsf : srcLoc.frame = src.frameCount) (hdc : dstLoc.channel < dst.channelCount)
    (hdf : dstLoc.frame < dst.frameCount) :
    dst.sampleRateConvertFrom blend src srcLoc dstLoc (n + 1) = .error .panic := by
  unfold sampleRateConvertFrom
  simp only
  generalize (src.sampleRate : ℝ) / dst.sampleRate = ratio
  rw [List.range_succ_eq_map, List.foldlM_cons]
  obtain ⟨s, s1, s2, s3⟩ := channelData_spec src hs srcLoc hsc (by omega)
  have hnil : s = [] := List.length_eq_zero_iff.mp (by omega)
  have e0 : ∀ l : Loc, l.offsetChannels 0 = l := fun l => rfl
  simp only [e0, s1, bind, Except.bind, hnil]
  have key : ∀ (b : Buf S) (loc : Loc) (g : List S → Res (List S)), b.WF → b.Writable →
      loc.channel < b.channelCount → loc.frame ≤ b.frameCount →
      (∀ l : List S, l.length = b.frameCount - loc.frame → g l = .error .panic) →
      b.modifyChannel loc g = .error .panic := by
    intro b
    induction b with
    | owned data cc fc sr =>
      intro loc g hw' _ h1 h2 hg
      simp only [Buf.frameCount, Buf.channelCount, WF] at h1 h2 hg hw'
      have h3 : (loc.channel + 1) * fc ≤ cc * fc := Nat.mul_le_mul_right _ h1
      have h4 : (loc.channel + 1) * fc = loc.channel * fc + fc := Nat.succ_mul ..
      unfold modifyChannel modifyRange
      rw [sliceRange_ok (by omega) (by omega)]
      simp only [bind, Except.bind]
      rw [hg _ (by rw [List.length_take, List.length_drop]; omega)]
    | slice p r m ih =>
      intro loc g hw' hwr h1 h2 hg
      obtain ⟨rfl, hwr⟩ := hwr
      obtain ⟨hw1, hw2, hw3⟩ := hw'
      simp only [Buf.frameCount, Buf.channelCount] at h1 h2 hg
      unfold modifyChannel
      rw [ih _ _ hw1 hwr (by simp only [Loc.offsetFrames, Loc.offsetChannels]; omega)
        (by simp only [Loc.offsetFrames, Loc.offsetChannels]; omega)]
      · rfl
      · intro l hl
        simp only [Loc.offsetFrames, Loc.offsetChannels] at hl
        rw [if_pos h2]
        unfold modifyRange
        rw [sliceRange_ok (by omega) (by omega)]
        simp only [bind, Except.bind]
        rw [hg _ (by rw [List.length_take, List.length_drop]; omega)]
  rw [key dst dstLoc _ hd hw hdc (by omega)]
  intro l hl
  obtain ⟨k, hk⟩ : ∃ k, l.length = k + 1 := ⟨l.length - 1, by omega⟩
  rw [hk, List.range_succ_eq_map, List.mapM_cons]
  unfold convertSample
  rfl

end Buf

/-- The value of the polygon is unique. -/
theorem OnPolygon.unique {x : Nat → ℝ} {n : Nat} {p y z : ℝ} (hn : 0 < n) (hy : OnPolygon x n p y) (hz : OnPolygon x n p z) : y = z := by
  have hn1 : (1 : ℝ) ≤ n := by exact_mod_cast hn
  have key : ∀ y z, ((p ≤ 0 ∧ y = x 0) ∨ ((n : ℝ) - 1 ≤ p ∧ y = x (n - 1))) → OnPolygon x n p z → y = z := by
    intro y z hy hz
    rcases hy with ⟨h1, rfl⟩ | ⟨h1, rfl⟩
    · rcases hz with ⟨_, rfl⟩ | ⟨h2, rfl⟩ | ⟨k, t, hk, ht0, ht1, hp, rfl⟩
      · rfl
      · have h3 : n = 1 := by
          have : (n : ℝ) ≤ 1 := by linarith
          have : n ≤ 1 := by exact_mod_cast this
          omega
        rw [h3]
      · have hk0 : (0 : ℝ) ≤ k := Nat.cast_nonneg k
        have h3 : (k : ℝ) = 0 := by linarith
        have h4 : t = 0 := by linarith
        have h5 : k = 0 := by exact_mod_cast h3
        rw [h4, h5]; ring
    · rcases hz with ⟨h2, rfl⟩ | ⟨_, rfl⟩ | ⟨k, t, hk, ht0, ht1, hp, rfl⟩
      · have h3 : n = 1 := by
          have : (n : ℝ) ≤ 1 := by linarith
          have : n ≤ 1 := by exact_mod_cast this
          omega
        rw [h3]
      · rfl
      · have hk0 : (k : ℝ) + 1 + 1 ≤ n := by exact_mod_cast hk
        have h4 : t = 1 := by linarith
        have h3 : (k : ℝ) + 1 + 1 = n := by linarith
        have h5 : k + 1 + 1 = n := by exact_mod_cast h3
        rw [h4, ← h5]
        simp
  rcases hy with h | h | ⟨k, t, hk, ht0, ht1, hp, rfl⟩
  · exact key _ _ (Or.inl h) hz
  · exact key _ _ (Or.inr h) hz
  · have hy' : OnPolygon x n p ((1 - t) * x k + t * x (k + 1)) := Or.inr (Or.inr ⟨k, t, hk, ht0, ht1, hp, rfl⟩)
    rcases hz with h | h | ⟨k', t', hk', ht0', ht1', hp', rfl⟩
    · exact (key _ _ (Or.inl h) hy').symm
    · exact (key _ _ (Or.inr h) hy').symm
    · rcases lt_trichotomy k k' with h | h | h
      · have h1 : (k : ℝ) + 1 ≤ k' := by exact_mod_cast h
        have h2 : t = 1 := by linarith
        have h3 : t' = 0 := by linarith
        have h4 : (k : ℝ) + 1 = k' := by linarith
        have h5 : k + 1 = k' := by exact_mod_cast h4
        rw [h2, h3, h5]; ring
      · subst h
        have : t = t' := by linarith
        rw [this]
      · have h1 : (k' : ℝ) + 1 ≤ k := by exact_mod_cast h
        have h2 : t' = 1 := by linarith
        have h3 : t = 0 := by linarith
        have h4 : (k' : ℝ) + 1 = k := by linarith
        have h5 : k' + 1 = k := by exact_mod_cast h4
        rw [h2, h3, h5]; ring

/-- The polygon lies between bounds of its corners. -/
theorem OnPolygon.between {x : Nat → ℝ} {n : Nat} {p y lo hi : ℝ} (hn : 0 < n) (h : OnPolygon x n p y)
    (hx : ∀ k, k < n → lo ≤ x k ∧ x k ≤ hi) : lo ≤ y ∧ y ≤ hi := by
  rcases h with ⟨_, rfl⟩ | ⟨_, rfl⟩ | ⟨k, t, hk, h0, h1, _, rfl⟩
  · exact hx 0 hn
  · exact hx (n - 1) (by omega)
  · obtain ⟨a1, a2⟩ := hx k (by omega)
    obtain ⟨b1, b2⟩ := hx (k + 1) hk
    constructor
    · nlinarith [mul_le_mul_of_nonneg_left a1 (by linarith : 0 ≤ 1 - t), mul_le_mul_of_nonneg_left b1 h0]
    · nlinarith [mul_le_mul_of_nonneg_left a2 (by linarith : 0 ≤ 1 - t), mul_le_mul_of_nonneg_left b2 h0]

/-- Interpolating between the two neighbours gives the polygon. -/
theorem onPolygon_blend (x : Nat → ℝ) (n : Nat) (hn : 0 < n) (p : ℝ) (hp : 0 ≤ p) :
    OnPolygon x n p (blend (p - ⌊p⌋₊) (x (min ⌊p⌋₊ (n - 1))) (x (min ⌈p⌉₊ (n - 1)))) := by
  have f1 := Nat.floor_le hp
  have f2 := Nat.lt_floor_add_one p
  have hcast : ((n - 1 : Nat) : ℝ) = (n : ℝ) - 1 := by rw [Nat.cast_sub (by omega)]; simp
  by_cases h : n - 1 ≤ ⌊p⌋₊
  · refine Or.inr (Or.inl ⟨?_, ?_⟩)
    · rw [← hcast]
      exact le_trans (by exact_mod_cast h) f1
    · have h2 : n - 1 ≤ ⌈p⌉₊ := le_trans h (Nat.floor_le_ceil p)
      rw [Nat.min_eq_right h, Nat.min_eq_right h2]
      unfold blend; ring
  · push Not at h
    by_cases hint : p = ⌊p⌋₊
    · refine Or.inr (Or.inr ⟨⌊p⌋₊, 0, by omega, le_refl _, zero_le_one, by linarith, ?_⟩)
      have hc : ⌈p⌉₊ = ⌊p⌋₊ := by
        conv_lhs => rw [hint]
        exact Nat.ceil_natCast _
      rw [hc, Nat.min_eq_left (by omega)]
      unfold blend
      rw [show p - (⌊p⌋₊ : ℝ) = 0 by linarith]
      ring
    · have hlt : (⌊p⌋₊ : ℝ) < p := lt_of_le_of_ne f1 (Ne.symm hint)
      have hc : ⌈p⌉₊ = ⌊p⌋₊ + 1 := by
        apply le_antisymm
        · exact Nat.ceil_le.mpr (by push_cast; linarith)
        · exact Nat.lt_ceil.mpr hlt
      refine Or.inr (Or.inr ⟨⌊p⌋₊, p - ⌊p⌋₊, by omega, by linarith, by linarith, by ring, ?_⟩)
      rw [hc, Nat.min_eq_left (by omega), Nat.min_eq_left (by omega)]
      rfl

end Rawdio
