import Verif.Model.FadeReal
import Verif.Lemmas.Voice

/-! # Properties of sampler voices (C41) -/

namespace Rawdio
namespace Voice

variable {S : Type} [Add S] [Mul S] [One S]

/-- A small sample for examples: two channels of four frames. -/
def exampleSample : Grid Int := ⟨2, 4, fun c f => 100 * c + f⟩

/-- An empty output of two channels and ten frames for examples. -/
def exampleOut : Grid Int := ⟨2, 10, fun _ _ => 0⟩

/-- C41: rendering a voice adds to each frame exactly what the voice sounds like at that time and changes
nothing else. In particular it returns. -/
theorem C41_render (v : Voice) (out : Grid S) (w : Window) (src : Grid S) (fade : Fade S)
    (hw : w.offset + w.count ≤ out.frames) (hv : v.Ok fade) :
    ∃ out', v.render out w src fade = .ok (v.after fade w.count, out') ∧
      out'.channels = out.channels ∧ out'.frames = out.frames ∧
      (∀ c f, c < out.channels → w.offset ≤ f → f < w.offset + w.count →
        out'.val c f = (v.heard fade (f - w.offset)).mix src c (out.val c f)) ∧
      (∀ c f, ¬ (w.offset ≤ f ∧ f < w.offset + w.count) → out'.val c f = out.val c f) :=
  ⟨_, render_spec src fade w v out hw hv, rfl, rfl,
    fun c f h1 h2 h3 => if_pos ⟨h1, h2, h3⟩, fun c f h => if_neg (fun h' => h h'.2)⟩

example : ∃ out', (⟨1, .fadingIn 1⟩ : Voice).render exampleOut ⟨3, 5⟩ exampleSample ⟨[0, 7, 9]⟩ =
    .ok (⟨6, .playing⟩, out') ∧ out'.val 1 4 = 9 * 102 := by
  obtain ⟨out', h1, _, _, h2, _⟩ := C41_render ⟨1, .fadingIn 1⟩ exampleOut ⟨3, 5⟩ exampleSample
    ⟨[0, 7, 9]⟩ (by decide) (by simp [Ok])
  exact ⟨out', h1, by rw [h2 1 4 (by decide) (by decide) (by decide)]; decide⟩

/-- C41: rendering `n + m` frames is rendering `n` and then `m` frames. -/
theorem C41_split (v : Voice) (out : Grid S) (offset n m : Nat) (src : Grid S) (fade : Fade S)
    (hw : offset + (n + m) ≤ out.frames) (hv : v.Ok fade) :
    v.render out ⟨offset, n + m⟩ src fade =
      (v.render out ⟨offset, n⟩ src fade).bind
        (fun r => r.1.render r.2 ⟨offset + n, m⟩ src fade) := by
  rw [render_spec src fade _ v out hw hv, render_spec src fade _ v out (by simp only; omega) hv]
  simp only [Except.bind]
  rw [render_spec src fade _ _ _ (by simp only [Grid.changed]; omega) (after_ok fade v hv n),
    after_after fade v n m]
  congr 2
  rw [← changed_changed out ⟨offset, n + m⟩ n m _ rfl]
  congr 1
  funext c i o
  rw [heard_after]

example : (⟨1, .fadingIn 1⟩ : Voice).render exampleOut ⟨2, 3 + 4⟩ exampleSample ⟨[0, 7, 9]⟩ =
    ((⟨1, .fadingIn 1⟩ : Voice).render exampleOut ⟨2, 3⟩ exampleSample ⟨[0, 7, 9]⟩).bind
      (fun r => r.1.render r.2 ⟨2 + 3, 4⟩ exampleSample ⟨[0, 7, 9]⟩) :=
  C41_split _ exampleOut 2 3 4 exampleSample ⟨[0, 7, 9]⟩ (by decide) (by simp [Ok])

/-- C41: a playing voice adds exactly the frames of the sample from its position on, and nothing past the
end of the sample. -/
theorem C41_verbatim (p : Nat) (out : Grid S) (w : Window) (src : Grid S) (fade : Fade S)
    (hw : w.offset + w.count ≤ out.frames) :
    ∃ out', (⟨p, .playing⟩ : Voice).render out w src fade = .ok (⟨p + w.count, .playing⟩, out') ∧
      ∀ c f, out'.val c f =
        if c < out.channels ∧ c < src.channels ∧ w.offset ≤ f ∧ f < w.offset + w.count ∧
          p + (f - w.offset) < src.frames
        then out.val c f + src.val c (p + (f - w.offset)) else out.val c f := by
  refine ⟨_, render_spec src fade w ⟨p, .playing⟩ out hw trivial, ?_⟩
  intro c f
  rw [Grid.changed_val]
  simp only [heard, Heard.mix]
  by_cases h1 : c < out.channels ∧ w.offset ≤ f ∧ f < w.offset + w.count
  · rw [if_pos h1]
    by_cases h2 : c < src.channels ∧ p + (f - w.offset) < src.frames
    · rw [if_pos h2, if_pos ⟨h1.1, h2.1, h1.2.1, h1.2.2, h2.2⟩]
    · rw [if_neg h2, if_neg (fun h => h2 ⟨h.2.1, h.2.2.2.2⟩)]
  · rw [if_neg h1, if_neg (fun h => h1 ⟨h.1, h.2.2.1, h.2.2.2.1⟩)]

example : ∃ out', (⟨1, .playing⟩ : Voice).render exampleOut ⟨2, 5⟩ exampleSample ⟨[0]⟩ =
    .ok (⟨6, .playing⟩, out') ∧ out'.val 1 3 = 102 ∧ out'.val 1 5 = 0 := by
  obtain ⟨out', h1, h2⟩ := C41_verbatim 1 exampleOut ⟨2, 5⟩ exampleSample ⟨[0]⟩ (by decide)
  exact ⟨out', h1, by rw [h2]; decide, by rw [h2]; decide⟩

/-- C41: a voice started at frame `p` of the sample adds the frames from `p` on, verbatim if it starts at the
beginning, and otherwise faded in over the length of the fade and verbatim after it. -/
theorem C41_starts (p : Nat) (out : Grid S) (w : Window) (src : Grid S) (fade : Fade S)
    (hL : 0 < fade.values.length) (hw : w.offset + w.count ≤ out.frames) :
    ∃ v' out', (startFromPosition p).render out w src fade = .ok (v', out') ∧
      ∀ c i, c < out.channels → c < src.channels → i < w.count → p + i < src.frames →
        out'.val c (w.offset + i) = out.val c (w.offset + i) +
          if p ≠ 0 ∧ i < fade.values.length then fade.values.getD i 1 * src.val c (p + i)
          else src.val c (p + i) := by
  refine ⟨_, _, render_spec src fade w _ out hw (start_ok fade p hL), ?_⟩
  intro c i h1 h2 h3 h4
  rw [Grid.changed_val, if_pos ⟨h1, by omega, by omega⟩, Nat.add_sub_cancel_left]
  unfold startFromPosition
  by_cases hp : p = 0
  · subst hp
    simp only [if_true, heard, Heard.mix]
    rw [if_pos ⟨h2, h4⟩, if_neg (by simp)]
  · rw [if_neg hp]
    simp only [heard, Nat.zero_add]
    by_cases hi : i < fade.values.length
    · rw [if_pos hi, if_pos ⟨hp, hi⟩]
      simp only [Heard.mix]
      rw [if_pos ⟨h2, h4⟩, List.getD_eq_getElem?_getD]
    · rw [if_neg hi, if_neg (fun h => hi h.2)]
      simp only [Heard.mix]
      rw [if_pos ⟨h2, h4⟩]

example : ∃ v' out', (startFromPosition 1).render exampleOut ⟨2, 5⟩ exampleSample ⟨[0, 7]⟩ = .ok (v', out') ∧
    out'.val 1 3 = 7 * 102 := by
  obtain ⟨v', out', h1, h2⟩ := C41_starts 1 exampleOut ⟨2, 5⟩ exampleSample ⟨[0, 7]⟩ (by decide) (by decide)
  exact ⟨v', out', h1, by rw [h2 1 1 (by decide) (by decide) (by decide) (by decide)]; decide⟩

/-- C41: a stopped voice fades out: after the length of the fade it adds nothing any more, and it is
stopped. -/
theorem C41_stops (v : Voice) (out : Grid S) (w : Window) (src : Grid S) (fade : Fade S)
    (hL : 0 < fade.values.length) (hw : w.offset + w.count ≤ out.frames) (hv : v.Ok fade) :
    ∃ v' out', v.stop.render out w src fade = .ok (v', out') ∧
      (∀ c f, w.offset + fade.values.length ≤ f → out'.val c f = out.val c f) ∧
      (fade.values.length ≤ w.count → v'.phase = .stopped) := by
  refine ⟨_, _, render_spec src fade w v.stop out hw (stop_ok fade v hL hv), ?_, ?_⟩
  · intro c f hf
    rw [Grid.changed_val]
    split
    · obtain ⟨p, ph⟩ := v
      cases ph with
      | stopped => rfl
      | playing => simp only [stop, heard]; rw [if_neg (by omega)]; rfl
      | fadingIn k => simp only [stop, heard]; rw [if_neg (by omega)]; rfl
      | fadingOut k => simp only [stop, heard]; rw [if_neg (by omega)]; rfl
    · rfl
  · intro hc
    obtain ⟨p, ph⟩ := v
    cases ph with
    | stopped => rfl
    | playing => simp only [stop]; rw [after_out_ge fade (by omega)]
    | fadingIn k => simp only [stop]; rw [after_out_ge fade (by omega)]
    | fadingOut k => simp only [stop]; rw [after_out_ge fade (by omega)]

example : ∃ v' out', (⟨1, .playing⟩ : Voice).stop.render exampleOut ⟨2, 5⟩ exampleSample ⟨[0, 1]⟩ =
    .ok (v', out') ∧ v'.phase = .stopped := by
  obtain ⟨v', out', h1, _, h3⟩ := C41_stops ⟨1, .playing⟩ exampleOut ⟨2, 5⟩ exampleSample ⟨[0, 1]⟩
    (by decide) (by decide) trivial
  exact ⟨v', out', h1, h3 (by decide)⟩

end Voice

namespace Fade

theorem curve_length (n : Nat) : (curve n).values.length = n := by simp [curve]

theorem curve_value (n p : Nat) (hp : p < n) :
    (curve n).value p = 1 / 2 + 1 / 2 * Real.sin ((2 * (p : ℝ) / n - 1) * (Real.pi / 2)) := by
  simp [value, curve, hp]

theorem curve_value_end (n : Nat) : (curve n).value n = 1 := by simp [value, curve]

/-- At every sample of the fade, the value, also at the end of it. -/
theorem curve_value_le (n p : Nat) (hn : 0 < n) (hp : p ≤ n) :
    (curve n).value p = 1 / 2 + 1 / 2 * Real.sin ((2 * (p : ℝ) / n - 1) * (Real.pi / 2)) := by
  rcases Nat.lt_or_ge p n with h | h
  · exact curve_value n p h
  · have e : p = n := by omega
    subst e
    have hn' : (p : ℝ) ≠ 0 := by exact_mod_cast hn.ne'
    rw [curve_value_end]
    have : (2 * (p : ℝ) / p - 1) * (Real.pi / 2) = Real.pi / 2 := by
      field_simp
      norm_num
    rw [this, Real.sin_pi_div_two]
    norm_num

/-- C41: with the fade of the code (over the reals) the gains of a voice that fades out and of a voice
that fades in at the same time add up to one at every frame, and neither is negative. -/
theorem C41_crossfade (n i : Nat) (hi : i < n) :
    ∃ g, (curve n).fadeOutValue i = .ok g ∧ (curve n).fadeInValue i + g = 1 ∧
      0 ≤ (curve n).fadeInValue i ∧ 0 ≤ g := by
  have hn : 0 < n := by omega
  have hn' : (n : ℝ) ≠ 0 := by exact_mod_cast hn.ne'
  have hl : (curve n).len = n := curve_length n
  refine ⟨(curve n).value (n - i), ?_, ?_, ?_, ?_⟩
  · unfold fadeOutValue
    rw [hl, if_neg (by omega)]
  · unfold fadeInValue
    rw [curve_value_le n i hn hi.le, curve_value_le n (n - i) hn (Nat.sub_le _ _)]
    have e : (2 * ((n - i : Nat) : ℝ) / n - 1) * (Real.pi / 2) =
        -((2 * (i : ℝ) / n - 1) * (Real.pi / 2)) := by
      rw [Nat.cast_sub hi.le]
      field_simp
      ring
    rw [e, Real.sin_neg]
    ring
  · unfold fadeInValue
    rw [curve_value_le n i hn hi.le]
    have := Real.neg_one_le_sin ((2 * (i : ℝ) / n - 1) * (Real.pi / 2))
    linarith
  · rw [curve_value_le n (n - i) hn (Nat.sub_le _ _)]
    have := Real.neg_one_le_sin ((2 * ((n - i : Nat) : ℝ) / n - 1) * (Real.pi / 2))
    linarith

example : ∃ g, (curve 2400).fadeOutValue 7 = .ok g ∧ (curve 2400).fadeInValue 7 + g = 1 ∧
    0 ≤ (curve 2400).fadeInValue 7 ∧ 0 ≤ g := C41_crossfade 2400 7 (by decide)

/-- C41: the gain of a fade in never decreases. -/
theorem C41_fade_monotone (n i j : Nat) (hij : i ≤ j) (hj : j < n) :
    (curve n).fadeInValue i ≤ (curve n).fadeInValue j := by
  have hn : 0 < n := by omega
  have hn' : (0 : ℝ) < n := by exact_mod_cast hn
  unfold fadeInValue
  rw [curve_value_le n i hn (by omega), curve_value_le n j hn hj.le]
  have hpi := Real.pi_pos
  have hi0 : (0 : ℝ) ≤ 2 * (i : ℝ) / n := by positivity
  have hj2 : 2 * (j : ℝ) / n ≤ 2 := by
    rw [div_le_iff₀ hn']
    have : (j : ℝ) ≤ n := by exact_mod_cast hj.le
    linarith
  have hle : 2 * (i : ℝ) / n ≤ 2 * (j : ℝ) / n := by
    apply div_le_div_of_nonneg_right _ hn'.le
    have : (i : ℝ) ≤ j := by exact_mod_cast hij
    linarith
  have := Real.sin_le_sin_of_le_of_le_pi_div_two
    (x := (2 * (i : ℝ) / n - 1) * (Real.pi / 2)) (y := (2 * (j : ℝ) / n - 1) * (Real.pi / 2))
    (by nlinarith) (by nlinarith) (by nlinarith)
  linarith

example : (curve 2400).fadeInValue 7 ≤ (curve 2400).fadeInValue 1000 :=
  C41_fade_monotone 2400 7 1000 (by decide) (by decide)

end Fade
end Rawdio
