import Mathlib.Tactic.NormNum
import Mathlib.Tactic.LinearCombination
import Verif.Lemmas.Waveshaper

/-! # Properties of the waveshaper (C55, C71, C72) -/

namespace Rawdio
namespace Waveshaper

open Buf

theorem overdriveGain_eq (o : ℝ) (h : -10 ≤ o) : overdriveGain o = drive o := by
  unfold overdriveGain drive Level.fromDb Level.minusInfinityDecibels
  rw [if_neg (by linarith)]
  simp only
  congr 1
  ring

theorem drive_ge_one (o : ℝ) (h : 0 ≤ o) : 1 ≤ drive o :=
  Real.one_le_rpow (by norm_num) (by linarith)

theorem inputValue_eq (i : Nat) : inputValue i numPoints = -1 + 2 * i / 510 := by
  unfold inputValue numPoints
  push_cast
  norm_num
  ring

theorem inputValue_range (i : Nat) (h : i < 511) : -1 ≤ -1 + 2 * (i : ℝ) / 510 ∧ -1 + 2 * (i : ℝ) / 510 ≤ 1 := by
  have h0 : (0 : ℝ) ≤ i := Nat.cast_nonneg i
  have h1 : (i : ℝ) ≤ 510 := by exact_mod_cast (by omega : i ≤ 510)
  constructor
  · have : 0 ≤ 2 * (i : ℝ) / 510 := by positivity
    linarith
  · have : 2 * (i : ℝ) / 510 ≤ 2 := by rw [div_le_iff₀ (by norm_num)]; linarith
    linarith

/-- The corners of the polygon. -/
noncomputable def corners (curve : ℝ → ℝ) (i : Nat) : ℝ := curve (-1 + 2 * i / 510)

theorem new_transfer (curve : ℝ → ℝ) (shaper : ℝ → Option ℝ) (hs : ∀ x, shaper x = some (curve x)) (sr mf : Nat) :
    (new shaper sr mf).transfer = (List.range 511).map (fun i => some (corners curve i)) := by
  unfold new
  simp only [inputValue_eq, hs]
  rw [show numPoints = 511 from rfl]
  simp only [corners]

/-- C55, one sample: for every curve and every sample, inside [-1,1] or not, the shaped value is the value of the
polygon through the curve at 511 points, held beyond both ends. -/
theorem C55_sample (curve : ℝ → ℝ) (shaper : ℝ → Option ℝ) (hs : ∀ x, shaper x = some (curve x)) (sr mf : Nat) (s : ℝ) :
    ∃ y, shapeSample (some s) (new shaper sr mf).transfer = .ok (some y) ∧
      OnPolygon (fun i => curve (-1 + 2 * i / 510)) 511 ((s + 1) / 2 * 510) y := by
  obtain ⟨y, h1, h2⟩ := shaped_polygon (corners curve) 511 (by norm_num) _
    (new_transfer curve shaper hs sr mf) s
  refine ⟨y, ?_, ?_⟩
  · rw [shapeSample_ok _ (by rw [new_transfer curve shaper hs]; simp), h1]
  · have : ((511 : Nat) : ℝ) - 1 = 510 := by norm_num
    rw [this] at h2
    exact h2

/-- C55: the shaped value lies between bounds of the curve on [-1,1]. -/
theorem C55_between (curve : ℝ → ℝ) (shaper : ℝ → Option ℝ) (hs : ∀ x, shaper x = some (curve x)) (sr mf : Nat) (s : ℝ)
    (lo hi : ℝ) (hb : ∀ x, -1 ≤ x → x ≤ 1 → lo ≤ curve x ∧ curve x ≤ hi) :
    ∃ y, shapeSample (some s) (new shaper sr mf).transfer = .ok (some y) ∧ lo ≤ y ∧ y ≤ hi := by
  obtain ⟨y, h1, h2⟩ := C55_sample curve shaper hs sr mf s
  exact ⟨y, h1, h2.between (by norm_num) (fun k hk => hb _ (inputValue_range k hk).1 (inputValue_range k hk).2)⟩

example : ∃ y, shapeSample (some 7) (new (hardCurve (1 / 2)) 48000 512).transfer = .ok (some y) ∧ -(1 / 2) ≤ y ∧ y ≤ 1 / 2 := by
  refine C55_between (fun x => max (-(1 / 2)) (min x (1 / 2))) _ ?_ _ _ _ _ _ ?_
  · intro x
    unfold hardCurve
    split
    · rw [min_eq_left (by linarith), max_eq_left (by linarith)]
    · split
      · rw [min_eq_right (by linarith), max_eq_right (by linarith)]
      · rw [min_eq_left (by linarith), max_eq_right (by linarith)]
  · intro x _ _
    exact ⟨le_max_left _ _, max_le (by norm_num) (min_le_right _ _)⟩

/-- A rising curve gives a rising polygon. -/
theorem polygon_monotone {x : Nat → ℝ} {n : Nat} (hn : 0 < n) (hx : ∀ i j, i ≤ j → j < n → x i ≤ x j) {p q y z : ℝ}
    (hpq : p ≤ q) (hy : OnPolygon x n p y) (hz : OnPolygon x n q z) : y ≤ z := by
  have hb : ∀ p y, OnPolygon x n p y → x 0 ≤ y ∧ y ≤ x (n - 1) := fun p y h =>
    h.between hn (fun k hk => ⟨hx 0 k (Nat.zero_le _) hk, hx k (n - 1) (by omega) (by omega)⟩)
  rcases hy with ⟨_, rfl⟩ | ⟨h1, rfl⟩ | ⟨k, t, hk, ht0, ht1, hp, rfl⟩
  · exact (hb _ _ hz).1
  · have : OnPolygon x n q (x (n - 1)) := Or.inr (Or.inl ⟨by linarith, rfl⟩)
    rw [hz.unique hn this]
  · rcases hz with ⟨h2, rfl⟩ | ⟨_, rfl⟩ | ⟨m, u, hm, hu0, hu1, hq, rfl⟩
    · have h3 : OnPolygon x n p (x 0) := Or.inl ⟨by linarith, rfl⟩
      rw [h3.unique hn (Or.inr (Or.inr ⟨k, t, hk, ht0, ht1, hp, rfl⟩))]
    · exact (hb p _ (Or.inr (Or.inr ⟨k, t, hk, ht0, ht1, hp, rfl⟩))).2
    · have a1 := hx k (k + 1) (by omega) hk
      have b1 := hx m (m + 1) (by omega) hm
      rcases lt_trichotomy k m with h | h | h
      · have c1 := hx (k + 1) m (by omega) (by omega)
        nlinarith [mul_nonneg (by linarith : 0 ≤ 1 - t) (by linarith : 0 ≤ x (k + 1) - x k),
          mul_nonneg hu0 (by linarith : 0 ≤ x (m + 1) - x m)]
      · subst h
        nlinarith [mul_nonneg (by linarith : 0 ≤ u - t) (by linarith : 0 ≤ x (k + 1) - x k)]
      · have h1 : (m : ℝ) + 1 ≤ k := by exact_mod_cast h
        have h2 : t = 0 := by linarith
        have h3 : u = 1 := by linarith
        have h4 : (m : ℝ) + 1 = k := by linarith
        have h5 : m + 1 = k := by exact_mod_cast h4
        rw [h2, h3, h5]
        linarith

/-- C55: a curve that rises on [-1,1] keeps the order of any two samples. -/
theorem C55_monotone (curve : ℝ → ℝ) (shaper : ℝ → Option ℝ) (hs : ∀ x, shaper x = some (curve x)) (sr mf : Nat)
    (hm : ∀ a b, -1 ≤ a → a ≤ b → b ≤ 1 → curve a ≤ curve b) (s t : ℝ) (hst : s ≤ t) :
    ∃ y z, shapeSample (some s) (new shaper sr mf).transfer = .ok (some y) ∧
      shapeSample (some t) (new shaper sr mf).transfer = .ok (some z) ∧ y ≤ z := by
  obtain ⟨y, h1, h2⟩ := C55_sample curve shaper hs sr mf s
  obtain ⟨z, h3, h4⟩ := C55_sample curve shaper hs sr mf t
  refine ⟨y, z, h1, h3, polygon_monotone (by norm_num) ?_ (by linarith) h2 h4⟩
  intro i j hij hj
  refine hm _ _ (inputValue_range i (by omega)).1 ?_ (inputValue_range j hj).2
  have : (i : ℝ) ≤ j := by exact_mod_cast hij
  have : 2 * (i : ℝ) / 510 ≤ 2 * (j : ℝ) / 510 := by
    rw [div_le_div_iff_of_pos_right (by norm_num)]; linarith
  linarith

/-- Every sample of `out` is the shaped sample of the input of the block. -/
def ShapedBlock (curve : ℝ → ℝ) (b : ShaperBlock) (out : Buf (Option ℝ)) : Prop :=
  b.output.SameShape out ∧ ∀ c f x, b.input.sample? c f = some (some x) →
    ∃ v, out.sample? c f = some (some v) ∧ Shaped curve (b.overdrive.getD f 0) (b.mix.getD f 0) x v

theorem getD_mem_range {l : List ℝ} {f : Nat} (h : f < l.length) : l.getD f 0 ∈ l := by
  rw [List.getD_eq_getElem?_getD, List.getElem?_eq_getElem h]
  exact List.getElem_mem h

theorem block_ok (curve : ℝ → ℝ) {w : Waveshaper} {sr mf : Nat} (h : w.Ok sr mf) (hsr : 0 < sr)
    (ht : w.transfer = (List.range 511).map (fun i => some (corners curve i))) (b : ShaperBlock)
    (hb : b.Ok sr mf) :
    ∃ w' out, w.processAudio b.overdrive b.mix b.input b.output = .ok (w', out) ∧ w'.Ok sr mf ∧
      w'.transfer = w.transfer ∧ ShapedBlock curve b out := by
  obtain ⟨w', out, e1, e2, e3, e4, e5, e6, e7⟩ := processAudio_ok h hsr hb.inputWF hb.outputWF hb.writable b.overdrive b.mix
    hb.channels hb.frames hb.nonempty hb.short hb.rate hb.overdriveLength hb.mixLength
  refine ⟨w', out, e1, e2, e3, e4, ?_⟩
  intro c f x hx
  have hin : c < b.input.channelCount ∧ f < b.input.frameCount := by
    by_contra hcon
    have : b.input.sample? c f = none := sample?_eq_none b.input c f hcon
    rw [this] at hx
    exact absurd hx (by simp)
  have hch := hb.channels
  have hfr := hb.frames
  have h1 := e7 c f (by omega) (by omega)
  rw [hx] at h1
  have ho := (hb.overdriveRange _ (getD_mem_range (f := f) (by rw [hb.overdriveLength]; omega))).1
  generalize b.overdrive.getD f 0 = o at h1 ho ⊢
  generalize b.mix.getD f 0 = m at h1 ⊢
  obtain ⟨y, hy, hp⟩ := shaped_polygon (corners curve) 511 (by norm_num) _ ht
    (x * overdriveGain o)
  rw [show ((511 : Nat) : ℝ) - 1 = 510 by norm_num, overdriveGain_eq o (by linarith)] at hp
  refine ⟨m * (y / drive o) + (1 - m) * x, ?_, y, hp, rfl⟩
  rw [h1]
  simp only [Option.map_some, Option.some.injEq]
  unfold outSample
  simp only [Option.map_some, hy]
  show some (y / overdriveGain o * m + x * (1 - m)) = _
  rw [overdriveGain_eq o (by linarith)]
  congr 1
  ring

/-- C55, whole node: for every curve, every sequence of blocks of any permitted lengths and every values of the
parameters in range, nothing fails and each output sample is the shaped input sample at the same frame: the two
conversions between rates cancel and nothing is carried from one block to the next. -/
theorem C55_blocks (curve : ℝ → ℝ) (shaper : ℝ → Option ℝ) (hs : ∀ x, shaper x = some (curve x)) (sr mf : Nat)
    (hsr : 0 < sr) (blocks : List ShaperBlock) (hb : ∀ b ∈ blocks, b.Ok sr mf) :
    ∃ outs, (new shaper sr mf).run blocks = .ok outs ∧ List.Forall₂ (ShapedBlock curve) blocks outs := by
  have key : ∀ (blocks : List ShaperBlock) (w : Waveshaper), w.Ok sr mf →
      w.transfer = (List.range 511).map (fun i => some (corners curve i)) →
      (∀ b ∈ blocks, b.Ok sr mf) →
      ∃ outs, w.run blocks = .ok outs ∧ List.Forall₂ (ShapedBlock curve) blocks outs := by
    intro blocks
    induction blocks with
    | nil => intro w _ _ _; exact ⟨[], rfl, List.Forall₂.nil⟩
    | cons b bs ih =>
      intro w hw ht hb
      obtain ⟨w', out, e1, e2, e3, e4⟩ := block_ok curve hw hsr ht b (hb b List.mem_cons_self)
      obtain ⟨outs, f1, f2⟩ := ih w' e2 (e3.trans ht) (fun b' h => hb b' (List.mem_cons_of_mem _ h))
      refine ⟨out :: outs, ?_, List.Forall₂.cons e4 f2⟩
      unfold run
      simp only [e1, bind, Except.bind, f1, pure, Except.pure]
  exact key blocks _ (new_ok shaper sr mf) (new_transfer curve shaper hs sr mf) hb

/-- A block for the examples. -/
noncomputable def exampleBlock : ShaperBlock :=
  ⟨[0, 1], [1, 1], owned [some (1 / 4), some 3] 1 2 48000, owned [some 0, some 0] 1 2 48000⟩

theorem exampleBlock_ok : exampleBlock.Ok 48000 512 where
  inputWF := rfl
  outputWF := rfl
  writable := trivial
  channels := rfl
  frames := rfl
  nonempty := by show 0 < 2; norm_num
  short := by show 2 ≤ 512; norm_num
  rate := rfl
  overdriveLength := rfl
  mixLength := rfl
  overdriveRange := by simp [exampleBlock]
  mixRange := by simp [exampleBlock]

/-- C55: when the curve stays within `limit` on [-1,1] the wet signal never exceeds it, at any overdrive; with the
dry signal mixed in, the output is bounded by the mix of both. -/
theorem C55_limit (curve : ℝ → ℝ) (limit : ℝ) (hl : ∀ x, -1 ≤ x → x ≤ 1 → |curve x| ≤ limit) (overdrive mix x v : ℝ)
    (ho : 0 ≤ overdrive) (hm : 0 ≤ mix ∧ mix ≤ 1) (h : Shaped curve overdrive mix x v) :
    |v| ≤ mix * limit + (1 - mix) * |x| := by
  obtain ⟨y, hy, rfl⟩ := h
  have hb := hy.between (lo := -limit) (hi := limit) (by norm_num)
    (fun k hk => abs_le.mp (hl _ (inputValue_range k hk).1 (inputValue_range k hk).2))
  have hy' : |y| ≤ limit := abs_le.mpr hb
  have hg := drive_ge_one overdrive ho
  have hd : |y / drive overdrive| ≤ limit := by
    rw [abs_div, abs_of_pos (by linarith : (0 : ℝ) < drive overdrive)]
    exact le_trans (div_le_self (abs_nonneg _) hg) hy'
  calc |mix * (y / drive overdrive) + (1 - mix) * x|
      ≤ |mix * (y / drive overdrive)| + |(1 - mix) * x| := abs_add_le _ _
    _ = mix * |y / drive overdrive| + (1 - mix) * |x| := by
        rw [abs_mul, abs_mul, abs_of_nonneg hm.1, abs_of_nonneg (by linarith : (0 : ℝ) ≤ 1 - mix)]
    _ ≤ _ := by nlinarith [mul_le_mul_of_nonneg_left hd hm.1]

/-- The clipping function (spec of `hard_clip`, documentation at `effects/waveshaper/waveshaper_node.rs:58-59`). -/
noncomputable def clipTo (threshold x : ℝ) : ℝ := max (-threshold) (min x threshold)

theorem hardCurve_eq (threshold : ℝ) (ht : 0 ≤ threshold) (x : ℝ) : hardCurve threshold x = some (clipTo threshold x) := by
  unfold hardCurve clipTo
  split
  · rw [min_eq_left (by linarith), max_eq_left (by linarith)]
  · split
    · rw [min_eq_right (by linarith), max_eq_right (by linarith)]
    · rw [min_eq_left (by linarith), max_eq_right (by linarith)]

/-- C55, hard clip: through every sequence of blocks, at every overdrive, a fully wet hard clip never exceeds its
threshold. -/
theorem C55_hard_clip (threshold : ℝ) (ht : 0 ≤ threshold) (sr mf : Nat) (hsr : 0 < sr) (blocks : List ShaperBlock)
    (hb : ∀ b ∈ blocks, b.Ok sr mf) (hwet : ∀ b ∈ blocks, ∀ m ∈ b.mix, m = 1)
    (hnum : ∀ b ∈ blocks, ∀ c f, c < b.input.channelCount → f < b.input.frameCount → ∃ x, b.input.sample? c f = some (some x)) :
    ∃ outs, (new (hardCurve threshold) sr mf).run blocks = .ok outs ∧ ∀ out ∈ outs, ∀ c f,
      c < out.channelCount → f < out.frameCount → ∃ v, out.sample? c f = some (some v) ∧ |v| ≤ threshold := by
  obtain ⟨outs, h1, h2⟩ := C55_blocks (clipTo threshold) _ (hardCurve_eq threshold ht) sr mf hsr blocks hb
  refine ⟨outs, h1, ?_⟩
  clear h1
  induction h2 with
  | nil => intro out h; simp at h
  | @cons b o bs os hbo _ ih =>
    intro out hout
    rcases List.mem_cons.mp hout with rfl | hout
    · intro c f hc hf
      have hcc := hbo.1.channelCount
      have hfc := hbo.1.frameCount
      have hok := hb b List.mem_cons_self
      have hch := hok.channels
      have hfr := hok.frames
      obtain ⟨x, hx⟩ := hnum b List.mem_cons_self c f (by omega) (by omega)
      obtain ⟨v, hv, hs⟩ := hbo.2 c f x hx
      refine ⟨v, hv, ?_⟩
      have hm : b.mix.getD f 0 = 1 := hwet b List.mem_cons_self _ (getD_mem_range (by rw [hok.mixLength]; omega))
      have hov := (hok.overdriveRange _ (getD_mem_range (f := f) (by rw [hok.overdriveLength]; omega))).1
      have := C55_limit (clipTo threshold) threshold ?_ _ _ _ _ hov ⟨by rw [hm]; norm_num, by rw [hm]⟩ hs
      · rw [hm] at this
        linarith
      · intro x _ _
        unfold clipTo
        exact abs_le.mpr ⟨le_max_left _ _, max_le (by linarith) (min_le_right _ _)⟩
    · exact ih (fun b h => hb b (List.mem_cons_of_mem _ h)) (fun b h => hwet b (List.mem_cons_of_mem _ h))
        (fun b h => hnum b (List.mem_cons_of_mem _ h)) out hout

example : ∃ outs, (new (hardCurve (1 / 2)) 48000 512).run [exampleBlock] = .ok outs ∧ ∀ out ∈ outs, ∀ c f,
      c < out.channelCount → f < out.frameCount → ∃ v, out.sample? c f = some (some v) ∧ |v| ≤ 1 / 2 := by
  refine C55_hard_clip (1 / 2) (by norm_num) 48000 512 (by norm_num) [exampleBlock]
    (by simp only [List.mem_singleton, forall_eq]; exact exampleBlock_ok) (by simp [exampleBlock]) ?_
  intro b hb c f hc hf
  rw [List.mem_singleton] at hb
  subst hb
  have hc' : c < 1 := hc
  have hf' : f < 2 := hf
  have : c = 0 := by omega
  have : f = 0 ∨ f = 1 := by omega
  subst c
  rcases this with rfl | rfl <;> exact ⟨_, rfl⟩

end Waveshaper
end Rawdio
