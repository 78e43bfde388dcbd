import Mathlib.Tactic.FieldSimp
import Verif.Lemmas.SampleRate
import Verif.Lemmas.Kernels

/-! # Lemmas on the waveshaper -/

namespace Rawdio

open Buf

theorem blend?_self (t : ℝ) (a : Option ℝ) : blend? t a a = a := by
  cases a with
  | none => rfl
  | some x =>
    show some (blend t x x) = some x
    unfold blend
    congr 1
    ring

/-- A converted sample at a whole position. -/
theorem convertedAt_nat (src : Buf (Option ℝ)) (srcLoc : Loc) (ratio : ℝ) (k i j : Nat)
    (h : (i : ℝ) * ratio = (j : ℝ)) (hj : srcLoc.frame + j < src.frameCount) (hs : src.WF)
    (hk : srcLoc.channel + k < src.channelCount) :
    convertedAt blend? src srcLoc ratio k i = src.sample? (srcLoc.channel + k) (srcLoc.frame + j) := by
  unfold convertedAt
  rw [h, Nat.floor_natCast, Nat.ceil_natCast, Nat.min_eq_left (by omega)]
  obtain ⟨x, hx, _⟩ := getSample_eq src hs (srcLoc.channel + k) (srcLoc.frame + j) hk hj
  rw [hx]
  show some (blend? _ x x) = some x
  rw [blend?_self]

theorem zipInto_some {A B : Type} (f : A → B → B) (a : List A) : ∀ (b : List B) (i : Nat) (x : A) (y : B),
    a[i]? = some x → b[i]? = some y → (Kernels.zipInto f a b)[i]? = some (f x y) := by
  induction a with
  | nil => intro b i x y h; simp at h
  | cons a as ih =>
    intro b i x y hx hy
    cases b with
    | nil => simp at hy
    | cons b bs =>
      cases i with
      | zero => simp only [List.getElem?_cons_zero, Option.some.injEq] at hx hy; simp [Kernels.zipInto, hx, hy]
      | succ i =>
        simp only [Kernels.zipInto, List.getElem?_cons_succ] at hx hy ⊢
        exact ih bs i x y hx hy

theorem zipInto3_some {A B C : Type} (f : A → B → C → B) (a : List A) : ∀ (b : List B) (c : List C) (i : Nat)
    (x : A) (y : B) (z : C), a[i]? = some x → b[i]? = some y → c[i]? = some z →
    (Kernels.zipInto3 f a b c)[i]? = some (f x y z) := by
  induction a with
  | nil => intro b c i x y z h; simp at h
  | cons a as ih =>
    intro b c i x y z hx hy hz
    cases b with
    | nil => simp at hy
    | cons b bs =>
      cases c with
      | nil => simp at hz
      | cons c cs =>
        cases i with
        | zero =>
          simp only [List.getElem?_cons_zero, Option.some.injEq] at hx hy hz
          simp [Kernels.zipInto3, hx, hy, hz]
        | succ i =>
          simp only [Kernels.zipInto3, List.getElem?_cons_succ] at hx hy hz ⊢
          exact ih bs cs i x y z hx hy hz

namespace Waveshaper

/-- The shaped value. -/
noncomputable def shaped (transfer : List (Option ℝ)) (x : Option ℝ) : Option ℝ :=
  match shapeSample x transfer with
  | .ok y => y
  | .error _ => none

theorem shapeIndex_nonneg (x : ℝ) (n : Nat) : 0 ≤ shapeIndex x n := le_max_left _ _

theorem shapeIndex_le (x : ℝ) (n : Nat) (hn : 0 < n) : shapeIndex x n ≤ (n : ℝ) - 1 := by
  have : (1 : ℝ) ≤ n := by exact_mod_cast hn
  exact max_le (by linarith) (min_le_right _ _)

theorem shapeIndex_bounds (x : ℝ) (n : Nat) (hn : 0 < n) :
    ⌊shapeIndex x n⌋₊ < n ∧ ⌈shapeIndex x n⌉₊ < n := by
  have h := shapeIndex_le x n hn
  have hc : ⌈shapeIndex x n⌉₊ ≤ n - 1 := by
    apply Nat.ceil_le.mpr
    rw [Nat.cast_sub (by omega)]
    simpa using h
  have := Nat.floor_le_ceil (shapeIndex x n)
  omega

theorem shapeSample_ok (transfer : List (Option ℝ)) (h : 0 < transfer.length) (x : Option ℝ) :
    shapeSample x transfer = .ok (shaped transfer x) := by
  have key : ∃ y, shapeSample x transfer = .ok y := by
    unfold shapeSample
    rw [if_neg (by omega)]
    cases x with
    | none => exact ⟨_, index_ok h⟩
    | some x =>
      simp only
      obtain ⟨h1, h2⟩ := shapeIndex_bounds x transfer.length h
      split
      · exact ⟨_, index_ok h1⟩
      · rw [List.getElem?_eq_getElem h1, List.getElem?_eq_getElem h2]
        exact ⟨_, rfl⟩
  obtain ⟨y, hy⟩ := key
  unfold shaped
  rw [hy]

/-- The shaped value as an interpolation. -/
theorem shaped_eq (transfer : List (Option ℝ)) (h : 0 < transfer.length) (x : ℝ) :
    shaped transfer (some x) = if ⌊shapeIndex x transfer.length⌋₊ = ⌈shapeIndex x transfer.length⌉₊ then
        transfer.getD ⌊shapeIndex x transfer.length⌋₊ none
      else blend? (shapeIndex x transfer.length - ⌊shapeIndex x transfer.length⌋₊)
        (transfer.getD ⌊shapeIndex x transfer.length⌋₊ none) (transfer.getD ⌈shapeIndex x transfer.length⌉₊ none) := by
  obtain ⟨h1, h2⟩ := shapeIndex_bounds x transfer.length h
  unfold shaped shapeSample
  rw [if_neg (by omega)]
  simp only
  rw [List.getD_eq_getElem?_getD, List.getD_eq_getElem?_getD, List.getElem?_eq_getElem h1,
    List.getElem?_eq_getElem h2]
  by_cases hc : ⌊shapeIndex x transfer.length⌋₊ = ⌈shapeIndex x transfer.length⌉₊
  · rw [if_pos hc, if_pos hc, index_ok h1]
    rfl
  · rw [if_neg hc, if_neg hc]
    rfl

/-- On a table of numbers the shaped value is the value of the polygon through the table. -/
theorem shaped_polygon (x : Nat → ℝ) (n : Nat) (hn : 0 < n) (transfer : List (Option ℝ))
    (ht : transfer = (List.range n).map (fun i => some (x i))) (s : ℝ) :
    ∃ y, shaped transfer (some s) = some y ∧ OnPolygon x n ((s + 1) / 2 * ((n : ℝ) - 1)) y := by
  have hlen : transfer.length = n := by rw [ht]; simp
  have hget : ∀ i, i < n → transfer.getD i none = some (x i) := by
    intro i hi
    rw [ht, List.getD_eq_getElem?_getD, List.getElem?_map, List.getElem?_range hi]
    rfl
  obtain ⟨h1, h2⟩ := shapeIndex_bounds s n hn
  have hp := onPolygon_blend x n hn (shapeIndex s n) (shapeIndex_nonneg s n)
  rw [Nat.min_eq_left (by omega), Nat.min_eq_left (by omega)] at hp
  have hn1 : (1 : ℝ) ≤ n := by exact_mod_cast hn
  have hcast : ((n - 1 : Nat) : ℝ) = (n : ℝ) - 1 := by rw [Nat.cast_sub (by omega)]; simp
  refine ⟨blend (shapeIndex s n - ⌊shapeIndex s n⌋₊) (x ⌊shapeIndex s n⌋₊) (x ⌈shapeIndex s n⌉₊), ?_, ?_⟩
  rotate_left
  · -- from the clamped to the unclamped position
    generalize hy : blend (shapeIndex s n - ⌊shapeIndex s n⌋₊) (x ⌊shapeIndex s n⌋₊) (x ⌈shapeIndex s n⌉₊) = y at hp
    show OnPolygon x n _ y
    unfold shapeIndex at hp
    generalize (s + 1) / 2 * ((n : ℝ) - 1) = p at hp
    rcases le_total p 0 with h | h
    · rw [max_eq_left (le_trans (min_le_left _ _) h)] at hp
      exact Or.inl ⟨h, hp.unique hn (Or.inl ⟨le_refl _, rfl⟩)⟩
    · rcases le_total p ((n : ℝ) - 1) with h' | h'
      · rw [min_eq_left h', max_eq_right h] at hp
        exact hp
      · rw [min_eq_right h', max_eq_right (by linarith)] at hp
        exact Or.inr (Or.inl ⟨h', hp.unique hn (Or.inr (Or.inl ⟨le_refl _, rfl⟩))⟩)
  · rw [shaped_eq transfer (by omega), hlen, hget _ h1, hget _ h2]
    by_cases hc : ⌊shapeIndex s n⌋₊ = ⌈shapeIndex s n⌉₊
    · rw [if_pos hc, ← hc]
      congr 1
      unfold blend
      ring
    · rw [if_neg hc]
      rfl

/-- The parts of the waveshaper that stay. -/
structure Ok (w : Waveshaper) (sampleRate maximumFrameCount : Nat) : Prop where
  table : 0 < w.transfer.length
  wf : w.oversampling.WF
  writable : w.oversampling.Writable
  channels : w.oversampling.channelCount = 1
  frames : w.oversampling.frameCount = maximumFrameCount * 2
  rate : w.oversampling.sampleRate = sampleRate * 2

theorem new_ok (shaper : ℝ → Option ℝ) (sampleRate maximumFrameCount : Nat) :
    (new shaper sampleRate maximumFrameCount).Ok sampleRate maximumFrameCount :=
  ⟨by simp [new, numPoints], by simp [new, WF], trivial, rfl, rfl, rfl⟩

/-- Up, shape, down. -/
theorem applyShape_ok {w : Waveshaper} {sr mf : Nat} (h : w.Ok sr mf) (hsr : 0 < sr) {output : Buf (Option ℝ)}
    (ho : output.WF) (hw : output.Writable) (c : Nat) (hc : c < output.channelCount) (hf : 0 < output.frameCount)
    (hmf : output.frameCount ≤ mf) (hrate : output.sampleRate = sr) :
    ∃ w' out, w.applyShape output c = .ok (w', out) ∧ w'.Ok sr mf ∧ w'.transfer = w.transfer ∧
      output.SameShape out ∧ out.WF ∧ out.Writable ∧
      ∀ c' f, out.sample? c' f = if c' = c ∧ f < output.frameCount then
        (output.sample? c f).map (shaped w.transfer) else output.sample? c' f := by
  have hsrR : (sr : ℝ) ≠ 0 := by exact_mod_cast hsr.ne'
  obtain ⟨up, u1, u2, u3, u4, u5⟩ := convert_spec blend? w.oversampling output (Loc.ofChannel c) Loc.origin 1 ho h.wf
    h.writable (by simp only [Loc.ofChannel]; omega) hf (by simp only [Loc.origin]; rw [h.channels])
    (Nat.zero_le _)
  have ucc := u2.channelCount
  have ufc := u2.frameCount
  have usr := u2.sampleRate
  have hcc := h.channels
  have hfc := h.frames
  have hsr' := h.rate
  obtain ⟨l, l1, l2, l3⟩ := channelData_spec up u3 Loc.origin (by simp only [Loc.origin]; omega) (Nat.zero_le _)
  obtain ⟨sh, s1, s2, s3, s4, s5⟩ := modifyChannel_spec up u3 u4 Loc.origin (by simp only [Loc.origin]; omega)
    (Nat.zero_le _) (fun data => data.mapM (fun x => shapeSample x w.transfer)) l (l.map (shaped w.transfer)) l1
    (mapM_ok _ _ _ (fun x _ => shapeSample_ok _ h.table x)) (by simp)
  have scc := s2.channelCount
  have sfc := s2.frameCount
  have ssr := s2.sampleRate
  obtain ⟨dn, d1, d2, d3, d4, d5⟩ := convert_spec blend? output sh Loc.origin (Loc.ofChannel c) 1 s3 ho hw
    (by simp only [Loc.origin]; omega) (by simp only [Loc.origin]; omega) (by simp only [Loc.ofChannel]; omega)
    (Nat.zero_le _)
  refine ⟨⟨w.transfer, sh⟩, dn, ?_, ?_, rfl, d2, d3, d4, ?_⟩
  · unfold applyShape
    simp only [u1, bind, Except.bind, s1, d1, pure, Except.pure]
  · exact ⟨h.table, s3, s4, by simp only; omega, by simp only; omega, by simp only; omega⟩
  · intro c' f
    rw [d5]
    by_cases hcf : c' = c ∧ f < output.frameCount
    · rw [if_pos hcf, if_pos (by simp only [Loc.ofChannel]; omega)]
      obtain ⟨rfl, hf'⟩ := hcf
      simp only [Loc.ofChannel, Nat.sub_zero, Nat.sub_self]
      rw [convertedAt_nat sh Loc.origin _ 0 f (2 * f) ?_ (by simp only [Loc.origin]; omega) s3
        (by simp only [Loc.origin]; omega)]
      · rw [s5]
        simp only [Loc.origin, Nat.add_zero, Nat.zero_add]
        rw [if_pos ⟨trivial, by omega, by omega⟩, List.getElem?_map, Nat.sub_zero, l3]
        simp only [Loc.origin, Nat.zero_add]
        rw [u5, if_pos (by simp only [Loc.origin]; omega)]
        simp only [Loc.origin, Nat.sub_zero]
        rw [convertedAt_nat output (Loc.ofChannel c') _ 0 (2 * f) f ?_ (by simp only [Loc.ofChannel]; omega) ho
          (by simp only [Loc.ofChannel]; omega)]
        · simp only [Loc.ofChannel, Nat.add_zero, Nat.zero_add]
        · rw [hrate, h.rate]; push_cast; field_simp
      · rw [hrate, show sh.sampleRate = sr * 2 by omega]; push_cast; field_simp
    · rw [if_neg hcf, if_neg (by simp only [Loc.ofChannel]; omega)]

/-- What one sample becomes. -/
noncomputable def outSample (transfer : List (Option ℝ)) (overdrive mix : ℝ) (x : Option ℝ) : Option ℝ :=
  mixSample x ((shaped transfer (x.map (· * overdriveGain overdrive))).map (· / overdriveGain overdrive)) mix

theorem processChannel_ok {w : Waveshaper} {sr mf : Nat} (h : w.Ok sr mf) (hsr : 0 < sr)
    {input output : Buf (Option ℝ)} (hi : input.WF) (ho : output.WF) (hw : output.Writable) (overdrive mix : List ℝ)
    (c : Nat) (hc : c < output.channelCount) (hic : c < input.channelCount)
    (hfr : input.frameCount = output.frameCount) (hf : 0 < output.frameCount) (hmf : output.frameCount ≤ mf)
    (hrate : output.sampleRate = sr) (hol : overdrive.length = output.frameCount)
    (hml : mix.length = output.frameCount) :
    ∃ w' out, processChannel overdrive mix input (w, output) c = .ok (w', out) ∧ w'.Ok sr mf ∧
      w'.transfer = w.transfer ∧ output.SameShape out ∧ out.WF ∧ out.Writable ∧
      ∀ c' f, out.sample? c' f = if c' = c ∧ f < output.frameCount then
        (input.sample? c f).map (outSample w.transfer (overdrive.getD f 0) (mix.getD f 0)) else output.sample? c' f := by
  obtain ⟨d, x1, x2, x3⟩ := channelData_spec input hi (Loc.ofChannel c) (by simp only [Loc.ofChannel]; omega) (Nat.zero_le _)
  obtain ⟨l, l1, l2, l3⟩ := channelData_spec output ho (Loc.ofChannel c) (by simp only [Loc.ofChannel]; omega) (Nat.zero_le _)
  simp only [Loc.ofChannel, Nat.sub_zero, Nat.zero_add] at x2 x3 l2 l3
  have hlen1 : (applyOverdrive overdrive d).length = d.length := Kernels.length_zipInto _ _ _
  obtain ⟨b1, a1, a2, a3, a4, a5⟩ := modifyChannel_spec output ho hw (Loc.ofChannel c) (by simp only [Loc.ofChannel]; omega)
    (Nat.zero_le _) (fun out => if out.length = d.length then .ok (applyOverdrive overdrive d) else .error .panic) l
    (applyOverdrive overdrive d) l1 (if_pos (by omega)) (by omega)
  have acc := a2.channelCount
  have afc := a2.frameCount
  have asr := a2.sampleRate
  obtain ⟨w', b2, s1, s2, s3, s4, s5, s6, s7⟩ := applyShape_ok h hsr a3 a4 c (by omega) (by omega) (by omega) (by omega)
  have scc := s4.channelCount
  have sfc := s4.frameCount
  obtain ⟨m, m1, m2, m3⟩ := channelData_spec b2 s5 (Loc.ofChannel c) (by simp only [Loc.ofChannel]; omega) (Nat.zero_le _)
  simp only [Loc.ofChannel, Nat.sub_zero, Nat.zero_add] at m2 m3
  have hlen2 : (reverseOverdrive overdrive m).length = m.length := Kernels.length_zipInto _ _ _
  have hlen3 : (mixInput d (reverseOverdrive overdrive m) mix).length = (reverseOverdrive overdrive m).length :=
    Kernels.length_zipInto3 _ _ _ _
  obtain ⟨b3, c1, c2, c3, c4, c5⟩ := modifyChannel_spec b2 s5 s6 (Loc.ofChannel c) (by simp only [Loc.ofChannel]; omega)
    (Nat.zero_le _) (fun out => .ok (mixInput d (reverseOverdrive overdrive out) mix)) m
    (mixInput d (reverseOverdrive overdrive m) mix) m1 rfl (by omega)
  refine ⟨w', b3, ?_, s2, s3, (a2.trans s4).trans c2, c3, c4, ?_⟩
  · unfold processChannel
    simp only [x1, bind, Except.bind, a1, s1, c1, pure, Except.pure]
  · intro c' f
    rw [c5]
    by_cases hcf : c' = c ∧ f < output.frameCount
    · rw [if_pos hcf]
      obtain ⟨rfl, hf'⟩ := hcf
      rw [if_pos ⟨rfl, Nat.zero_le _, by omega⟩]
      simp only [Loc.ofChannel, Nat.sub_zero]
      obtain ⟨x, hx, _⟩ := getSample_eq input hi c' f (by omega) (by omega)
      have hdx : d[f]? = some x := by rw [x3, hx]
      have hov : overdrive[f]? = some (overdrive.getD f 0) := by
        rw [List.getD_eq_getElem?_getD, List.getElem?_eq_getElem (by omega)]; rfl
      have hmx : mix[f]? = some (mix.getD f 0) := by
        rw [List.getD_eq_getElem?_getD, List.getElem?_eq_getElem (by omega)]; rfl
      have hb1 : b1.sample? c' f = some (x.map (· * overdriveGain (overdrive.getD f 0))) := by
        rw [a5, if_pos ⟨rfl, Nat.zero_le _, by omega⟩]
        simp only [Loc.ofChannel, Nat.sub_zero]
        unfold applyOverdrive
        exact zipInto_some _ _ _ _ _ _ hov hdx
      have hm : m[f]? = some (shaped w.transfer (x.map (· * overdriveGain (overdrive.getD f 0)))) := by
        rw [m3, s7, if_pos ⟨rfl, by omega⟩, hb1]
        rfl
      have hr : (reverseOverdrive overdrive m)[f]? = some ((shaped w.transfer
          (x.map (· * overdriveGain (overdrive.getD f 0)))).map (· / overdriveGain (overdrive.getD f 0))) := by
        unfold reverseOverdrive
        exact zipInto_some _ _ _ _ _ _ hov hm
      unfold mixInput
      rw [zipInto3_some _ _ _ _ _ _ _ _ hdx hr hmx, hx]
      rfl
    · rw [if_neg hcf, if_neg (by simp only [Loc.ofChannel]; omega), s7, if_neg (by omega), a5,
        if_neg (by simp only [Loc.ofChannel]; omega)]

theorem processAudio_ok {w : Waveshaper} {sr mf : Nat} (h : w.Ok sr mf) (hsr : 0 < sr)
    {input output : Buf (Option ℝ)} (hi : input.WF) (ho : output.WF) (hw : output.Writable) (overdrive mix : List ℝ)
    (hic : input.channelCount = output.channelCount)
    (hfr : input.frameCount = output.frameCount) (hf : 0 < output.frameCount) (hmf : output.frameCount ≤ mf)
    (hrate : output.sampleRate = sr) (hol : overdrive.length = output.frameCount)
    (hml : mix.length = output.frameCount) :
    ∃ w' out, w.processAudio overdrive mix input output = .ok (w', out) ∧ w'.Ok sr mf ∧
      w'.transfer = w.transfer ∧ output.SameShape out ∧ out.WF ∧ out.Writable ∧
      ∀ c f, c < output.channelCount → f < output.frameCount → out.sample? c f =
        (input.sample? c f).map (outSample w.transfer (overdrive.getD f 0) (mix.getD f 0)) := by
  unfold processAudio
  have key : ∀ n, n ≤ output.channelCount →
      ∃ w' out, (List.range n).foldlM (processChannel overdrive mix input) (w, output) = .ok (w', out) ∧ w'.Ok sr mf ∧
      w'.transfer = w.transfer ∧ output.SameShape out ∧ out.WF ∧ out.Writable ∧
      ∀ c f, c < n → f < output.frameCount → out.sample? c f =
        (input.sample? c f).map (outSample w.transfer (overdrive.getD f 0) (mix.getD f 0)) := by
    intro n
    induction n with
    | zero =>
      intro _
      exact ⟨w, output, rfl, h, rfl, SameShape.refl _, ho, hw, fun c f hc => by omega⟩
    | succ n ih =>
      intro hn
      obtain ⟨w1, b1, e1, e2, e3, e4, e5, e6, e7⟩ := ih (by omega)
      have hcc := e4.channelCount
      have hfc := e4.frameCount
      have hsr' := e4.sampleRate
      obtain ⟨w2, b2, f1, f2, f3, f4, f5, f6, f7⟩ := processChannel_ok e2 hsr hi e5 e6 overdrive mix n (by omega)
        (by omega) (by omega) (by omega) (by omega) (by omega) (by omega) (by omega)
      refine ⟨w2, b2, ?_, f2, f3.trans e3, e4.trans f4, f5, f6, ?_⟩
      · rw [List.range_succ, List.foldlM_append, e1]
        simp only [List.foldlM_cons, List.foldlM_nil, bind_pure]
        simp only [bind, Except.bind, f1]
      · intro c f hc hf'
        rw [f7]
        by_cases hcn : c = n
        · rw [if_pos ⟨hcn, by omega⟩, hcn, e3]
        · rw [if_neg (by omega), e7 c f (by omega) hf']
  exact key _ (le_refl _)

end Waveshaper
end Rawdio
