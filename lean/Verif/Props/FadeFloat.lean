import Verif.Lemmas.FadeFloat
import Verif.Props.SamplerVoice

/-!
# Properties of the crossfade of the sampler with `f32` samples (C115)
-/

namespace Rawdio
namespace Fade

/-- C115: at every position of the fades, with the voices in either order, the sum of the voice that fades out and the one
that fades in is the mean of their samples weighted by the shares, up to `2^-22` of both together, plus `2^-148`. -/
theorem C115_near (fade : Fade Sample32) (n : Nat) (hn : 0 < n) (h : Tabulated fade n) (inFirst : Bool) (p : Nat) (hp : p < n)
    (old new : Sample32) :
    ∃ y, fade.crossfade inFirst p old new = .ok y ∧
      |(y.1 : ℝ) - ((1 - share n p) * old.1 + share n p * new.1)| ≤
        (|(old.1 : ℝ)| + |(new.1 : ℝ)|) * (1 / 2 ^ 22) + 1 / 2 ^ 148 := by
  have hl := h.len
  obtain ⟨u0, u1, u2⟩ := value_near h hn hp.le
  obtain ⟨w0, w1, w2⟩ := value_near h hn (Nat.sub_le n p)
  rw [share_mirror hn hp.le] at w2
  refine ⟨_, crossfade_ok fade inFirst (by omega) old new, ?_⟩
  rw [hl]
  have k := sum_near (fade.value p) (fade.value (n - p)) old new u0 u1 w0 w1
  generalize fade.value (n - p) * old + fade.value p * new = y at *
  have k' : |(y.1 : ℝ) - ((fade.value (n - p)).1 * old.1 + (fade.value p).1 * new.1)| ≤
      (|(old.1 : ℝ)| + |(new.1 : ℝ)|) * (3 / 2 ^ 24) + 1 / 2 ^ 148 := by
    have := (Rat.cast_le (K := ℝ)).mpr k
    push_cast at this
    exact this
  generalize ((fade.value (n - p)).1 : ℝ) = w at *
  generalize ((fade.value p).1 : ℝ) = u at *
  generalize share n p = U at *
  have ha := abs_nonneg (old.1 : ℝ)
  have hb := abs_nonneg (new.1 : ℝ)
  generalize (old.1 : ℝ) = a at *
  generalize (new.1 : ℝ) = b at *
  have d : |w * a + u * b - ((1 - U) * a + U * b)| ≤ (|a| + |b|) * (1 / 2 ^ 24) := by
    have := abs_add_le ((w - (1 - U)) * a) ((u - U) * b)
    rw [abs_mul, abs_mul, show (w - (1 - U)) * a + (u - U) * b = w * a + u * b - ((1 - U) * a + U * b) by ring] at this
    have m1 := mul_le_mul_of_nonneg_right w2 ha
    have m2 := mul_le_mul_of_nonneg_right u2 hb
    linarith
  have t := abs_sub_le (y.1 : ℝ) (w * a + u * b) ((1 - U) * a + U * b)
  have e : (|a| + |b|) * (1 / 2 ^ 22) = (|a| + |b|) * (3 / 2 ^ 24) + (|a| + |b|) * (1 / 2 ^ 24) := by ring
  linarith

/-- C115: a signal that is the same on both sides of the loop keeps its level through the crossfade. -/
theorem C115_level (fade : Fade Sample32) (n : Nat) (hn : 0 < n) (h : Tabulated fade n) (inFirst : Bool) (p : Nat) (hp : p < n)
    (x : Sample32) :
    ∃ y, fade.crossfade inFirst p x x = .ok y ∧ |y.1 - x.1| ≤ |x.1| * (1 / 2 ^ 21) + 1 / 2 ^ 148 := by
  obtain ⟨y, h1, h2⟩ := C115_near fade n hn h inFirst p hp x x
  refine ⟨y, h1, ?_⟩
  rw [show (1 - share n p) * (x.1 : ℝ) + share n p * x.1 = x.1 by ring,
    show (|(x.1 : ℝ)| + |(x.1 : ℝ)|) * (1 / 2 ^ 22) = |(x.1 : ℝ)| * (1 / 2 ^ 21) by ring] at h2
  rw [← Rat.cast_le (K := ℝ)]
  push_cast
  exact h2

/-- C115: two voices rendered one after the other into a silent stretch of a buffer, one that begins to fade out at frame
`a` of the sample and one that begins to fade in at frame `b`: on every channel and every frame of the stretch the buffer
then holds the crossfade of the two parts of the sample. -/
theorem C115_voices (fade : Fade Sample32) (n : Nat) (h : Tabulated fade n) (sample out : Grid Sample32) (w : Window)
    (a b : Nat) (hw : w.offset + w.count ≤ out.frames) (hn : w.count ≤ n) (h0 : 0 < n) (ha : a + w.count ≤ sample.frames)
    (hb : b + w.count ≤ sample.frames)
    (hsilent : ∀ c f, c < out.channels → w.offset ≤ f → f < w.offset + w.count → out.val c f = 0) :
    ∃ v v' between out', (⟨a, .fadingOut 0⟩ : Voice).render out w sample fade = .ok (v, between) ∧
      (⟨b, .fadingIn 0⟩ : Voice).render between w sample fade = .ok (v', out') ∧
      ∀ c i, c < out.channels → c < sample.channels → i < w.count →
        |((out'.val c (w.offset + i)).1 : ℝ) -
          ((1 - share n i) * (sample.val c (a + i)).1 + share n i * (sample.val c (b + i)).1)| ≤
          (|((sample.val c (a + i)).1 : ℝ)| + |((sample.val c (b + i)).1 : ℝ)|) * (1 / 2 ^ 22) + 1 / 2 ^ 148 := by
  have hl : fade.values.length = n := h.len
  obtain ⟨between, r1, c1, f1, v1, _⟩ := Voice.C41_render ⟨a, .fadingOut 0⟩ out w sample fade hw (by
    show 0 < fade.values.length
    omega)
  obtain ⟨out', r2, _, _, v2, _⟩ := Voice.C41_render ⟨b, .fadingIn 0⟩ between w sample fade (by omega) (by
    show 0 < fade.values.length
    omega)
  refine ⟨_, _, between, out', r1, r2, ?_⟩
  intro c i hc hs hi
  obtain ⟨y, k1, k2⟩ := C115_near fade n h0 h false i (by omega) (sample.val c (a + i)) (sample.val c (b + i))
  rw [crossfade_ok fade false (by show i ≤ fade.values.length; omega)] at k1
  have hy := Except.ok.inj k1
  have e1 := v1 c (w.offset + i) hc (by omega) (by omega)
  have e2 := v2 c (w.offset + i) (by omega) (by omega) (by omega)
  rw [hsilent c (w.offset + i) hc (by omega) (by omega), Nat.add_sub_cancel_left] at e1
  rw [Nat.add_sub_cancel_left, e1] at e2
  have hi' : i < fade.values.length := by omega
  have g1 : (⟨a, .fadingOut 0⟩ : Voice).heard fade i = .faded (fade.value (fade.len - i)) (a + i) := by
    simp only [Voice.heard, Nat.zero_add, if_pos hi']
    rfl
  have g2 : (⟨b, .fadingIn 0⟩ : Voice).heard fade i = .faded (fade.value i) (b + i) := by
    simp only [Voice.heard, Nat.zero_add, if_pos hi']
    rfl
  have g : ∀ (g : Sample32) (f : Nat) (o : Sample32), f < sample.frames →
      (Heard.faded g f).mix sample c o = o + g * sample.val c f := fun g f o hf => if_pos ⟨hs, hf⟩
  rw [g1, g2, g _ _ _ (by omega), g _ _ _ (by omega), zero_add] at e2
  have : out'.val c (w.offset + i) = y := by
    rw [e2, ← hy]
  rw [this]
  exact k2

/-- A fade of two frames, 0 and a half, meets the hypotheses on the fade. -/
example : Tabulated ⟨[0, ⟨1 / 2, by have := Float32.rep_div 1 1 (by norm_num) (by norm_num); norm_num at this ⊢; exact this⟩]⟩ 2 := by
  refine ⟨rfl, fun p v hv => ?_⟩
  match p, hv with
  | 0, hv =>
    cases hv
    rw [Sample32.zero_val]
    refine ⟨le_rfl, zero_le_one, ?_⟩
    have : share 2 0 = 0 := by
      have := share_mirror (n := 2) (p := 2) (by norm_num) le_rfl
      rwa [share_last (by norm_num), sub_self] at this
    rw [this]
    norm_num
  | 1, hv =>
    cases hv
    refine ⟨by norm_num, by norm_num, ?_⟩
    unfold share
    norm_num
  | (k + 2), hv =>
    rw [List.getElem?_eq_none (Nat.le_add_left 2 k)] at hv
    cases hv

/-- A stretch of two frames in a silent buffer of two channels, and a sample of eight frames whose frames 5 and 6 fade out
while frames 1 and 2 fade in, meet the other hypotheses of `C115_voices`. -/
example : ∃ (sample out : Grid Sample32) (w : Window), w.offset + w.count ≤ out.frames ∧ w.count ≤ 2 ∧
    5 + w.count ≤ sample.frames ∧ 1 + w.count ≤ sample.frames ∧ sample.val 0 6 ≠ sample.val 0 2 ∧
    (∀ c f, c < out.channels → w.offset ≤ f → f < w.offset + w.count → out.val c f = 0) := by
  refine ⟨⟨2, 8, fun _ f => if f < 4 then 0 else 1⟩, ⟨2, 10, fun _ _ => 0⟩, ⟨3, 2⟩, by norm_num, le_rfl, by norm_num,
    by norm_num, ?_, fun _ _ _ _ _ => rfl⟩
  intro h
  have := congrArg Subtype.val h
  simp [Sample32.zero_val, Sample32.one_val] at this

end Fade
end Rawdio
