import Verif.Lemmas.FloatRound
import Verif.Spec.OscillatorFloat

/-! Helper lemmas about the oscillator with rounding. -/

namespace Rawdio
namespace Oscillator64

open Float64 Buf

theorem rep_one : Rep 1 := by simpa using rep_int 1 (by norm_num)

theorem rep_two : Rep 2 := by simpa using rep_int 2 (by norm_num)

theorem rep_52 {k : ℕ} (h : k ≤ 2 ^ 53) : Rep (k / 2 ^ 52) := by
  rcases h.eq_or_lt with rfl | h
  · have : ((2 ^ 53 : ℕ) : ℚ) / 2 ^ 52 = 2 := by norm_num
    rw [this]
    exact rep_two
  · exact rep_div k 52 h (by norm_num)

/-- An `f64` from 1 to 2 less 1 is not rounded. -/
theorem rep_sub_one {s : ℚ} (hs : Rep s) (h1 : 1 < s) (h2 : s ≤ 2) : Rep (s - 1) := by
  obtain ⟨m, e, rfl, hm, he⟩ := hs
  rcases le_or_gt (-52) e with h | h
  · have hc := zpow_cut h
    rw [hc, ← mul_assoc, ← Int.cast_mul] at h1 h2 ⊢
    generalize m * 2 ^ (e - -52).toNat = j at h1 h2 ⊢
    have e1 : (2 : ℚ) ^ (-52 : ℤ) = 1 / 2 ^ 52 := by norm_num
    rw [e1] at h1 h2 ⊢
    have h3 : ((2 ^ 52 : ℤ) : ℚ) < j := by norm_num at h1 ⊢; linarith
    have h4 : (j : ℚ) ≤ ((2 ^ 53 : ℤ) : ℚ) := by norm_num at h2 ⊢; linarith
    have h3 : (2 : ℤ) ^ 52 < j := by exact_mod_cast h3
    have h4 : j ≤ 2 ^ 53 := by exact_mod_cast h4
    refine ⟨j - 2 ^ 52, -52, ?_, ?_, by norm_num⟩
    · rw [e1]
      push_cast
      ring
    · rw [abs_lt]
      constructor <;> omega
  · exfalso
    have h4 := (le_abs_self _).trans_lt (rep_abs (e := e) hm)
    have h5 : (2 : ℚ) ^ (e + 53) ≤ 2 ^ (0 : ℤ) := zpow_le_zpow_right₀ (by norm_num) (by omega)
    rw [zpow_zero] at h5
    linarith

/-- One step of the phase. -/
theorem step {fuel : ℕ} (hfuel : 2 ≤ fuel) (sr : ℕ) (o : Oscillator64) (f : ℚ) (h0 : 0 ≤ o.phase) (h1 : o.phase ≤ 1)
    (hf0 : 0 ≤ f / sr) (hf1 : f / sr ≤ 1) :
    ∃ p, o.incrementPhase fuel f sr = .ok ⟨p, o.wavetable⟩ ∧ 0 ≤ p ∧ p ≤ 1 ∧ Rep p ∧
      ∃ k : ℤ, p + k = Float64.round (o.phase + Float64.round (f / sr)) ∧
        |p + k - (o.phase + f / sr)| ≤ 3 / 2 ^ 54 ∧ (0 < Float64.round (o.phase + Float64.round (f / sr)) → 0 < p) := by
  obtain ⟨r, hr⟩ : ∃ r, r = Float64.round (f / sr) := ⟨_, rfl⟩
  have r0 : 0 ≤ r := by rw [hr]; exact round_nonneg hf0
  have r1 : r ≤ 1 := by rw [hr]; exact round_le hf0 rep_one hf1
  have re : |r - f / sr| ≤ 1 / 2 ^ 54 := by
    rcases hf1.eq_or_lt with h | h
    · rw [hr, h, round_rep zero_le_one rep_one, sub_self, abs_zero]
      positivity
    · have := round_error_lt (x := f / sr) (e := -1) (by norm_num) (by rw [abs_of_nonneg hf0]; norm_num; exact h)
      rw [← hr] at this
      refine this.trans (le_of_eq ?_)
      norm_num
  rw [← hr]
  obtain ⟨s, hs⟩ : ∃ s, s = Float64.round (o.phase + r) := ⟨_, rfl⟩
  have hx0 : 0 ≤ o.phase + r := by linarith
  have hx2 : o.phase + r ≤ 2 := by linarith
  have s0 : 0 ≤ s := by rw [hs]; exact round_nonneg hx0
  have s2 : s ≤ 2 := by rw [hs]; exact round_le hx0 rep_two hx2
  have se : |s - (o.phase + r)| ≤ 1 / 2 ^ 53 := by
    rcases hx2.eq_or_lt with h | h
    · rw [hs, h, round_rep (by norm_num) rep_two, sub_self, abs_zero]
      positivity
    · have := round_error_lt (x := o.phase + r) (e := 0) (by norm_num) (by rw [abs_of_nonneg hx0]; norm_num; exact h)
      rw [← hs] at this
      refine this.trans (le_of_eq ?_)
      norm_num
  have srep : Rep s := by rw [hs]; exact rep_round hx0
  have herr : |s - (o.phase + f / sr)| ≤ 3 / 2 ^ 54 := by
    have e : s - (o.phase + f / sr) = (s - (o.phase + r)) + (r - f / sr) := by ring
    rw [e]
    refine (abs_add_le _ _).trans ?_
    have : (3 : ℚ) / 2 ^ 54 = 1 / 2 ^ 53 + 1 / 2 ^ 54 := by norm_num
    rw [this]
    exact add_le_add se re
  rw [← hs]
  obtain ⟨fuel, rfl⟩ := Nat.exists_eq_add_of_le' hfuel
  unfold incrementPhase
  rw [← hr, ← hs]
  rcases le_or_gt s 1 with h | h
  · refine ⟨s, ?_, s0, h, srep, 0, by simp, by simpa using herr, id⟩
    simp [wrap, not_lt.mpr h, bind, Except.bind, pure, Except.pure]
  · have hsub := rep_sub_one srep h s2
    have e := round_rep (by linarith) hsub
    refine ⟨s - 1, ?_, by linarith, by linarith, hsub, 1, by simp, by simpa using herr, fun _ => by linarith⟩
    have : ¬ 1 < s - 1 := by linarith
    simp [wrap, h, e, this, bind, Except.bind, pure, Except.pure]

theorem index_getD {l : List ℚ} {i : ℕ} (h : i < l.length) : index l i = .ok (l.getD i 0) := by
  simp [index, h]

theorem index_out {l : List ℚ} {i : ℕ} (h : l.length ≤ i) : index l i = .error .panic := by
  simp [index, h]

/-- Reading the table. -/
theorem getValue_cases (o : Oscillator64) (h0 : 0 ≤ o.phase) (h1 : o.phase ≤ 1) (hr : Rep o.phase)
    (ht : 0 < o.wavetable.length) (ht' : o.wavetable.length < 2 ^ 52) :
    (o.phase = 1 → o.getValue = .error .panic) ∧
    (o.phase < 1 → o.getValue = .ok (interpolate (o.wavetable.getD ⌊Float64.round (o.phase * o.wavetable.length)⌋₊ 0)
      (o.wavetable.getD ⌈Float64.round (o.phase * o.wavetable.length)⌉₊ 0)
      (Float64.round (Float64.round (o.phase * o.wavetable.length) -
        ⌊Float64.round (o.phase * o.wavetable.length)⌋)))) := by
  constructor
  · intro h
    have e : Float64.round (o.phase * o.wavetable.length) = o.wavetable.length := by
      rw [h, one_mul]
      refine round_rep (Nat.cast_nonneg _) ?_
      have := rep_int (o.wavetable.length : ℤ) (by rw [abs_of_nonneg (by positivity)]; omega)
      exact_mod_cast this
    unfold getValue
    simp only [e, Nat.floor_natCast]
    rw [index_out le_rfl]
    rfl
  · intro h
    have hlt := round_mul_lt h0 (rep_gap h0 hr h) _ ht ht'
    have hnn : 0 ≤ Float64.round (o.phase * o.wavetable.length) := round_nonneg (mul_nonneg h0 (Nat.cast_nonneg _))
    unfold getValue
    obtain ⟨x, hx⟩ : ∃ x, x = Float64.round (o.phase * o.wavetable.length) := ⟨_, rfl⟩
    simp only [← hx] at hlt hnn ⊢
    have hfl : ⌊x⌋₊ < o.wavetable.length := (Nat.floor_lt hnn).mpr hlt
    rw [index_getD hfl]
    split
    · rename_i hc
      rw [index_getD hc]
      rfl
    · rename_i hc
      have : o.wavetable.getD ⌈x⌉₊ 0 = 0 := by
        rw [List.getD_eq_getElem?_getD, List.getElem?_eq_none (by omega)]
        rfl
      rw [this]
      rfl

/-- The phase is the cycles gone by, less a whole number, with an error of at most `d`. -/
def At (d c p : ℚ) : Prop := 0 ≤ p ∧ p ≤ 1 ∧ Rep p ∧ ∃ k : ℤ, |p + k - c| ≤ d

theorem cycles_cons (sr : ℕ) (f : ℚ) (fs : List ℚ) : cycles sr (f :: fs) = f / sr + cycles sr fs := by simp [cycles]

/-- What filling a block does, with the error of the phase. -/
theorem fill_cases {fuel : ℕ} (hfuel : 2 ≤ fuel) (sr : ℕ) (table : List ℚ) (ht : 0 < table.length)
    (ht' : table.length < 2 ^ 52) (frames : List (ℚ × ℚ)) (hf : ∀ x ∈ frames, 0 ≤ x.2 / sr ∧ x.2 / sr ≤ 1) :
    ∀ d c p : ℚ, At d c p →
    (∃ p' values, fill fuel sr ⟨p, table⟩ frames = .ok (⟨p', table⟩, values) ∧
      At (d + frames.length * (3 / 2 ^ 54)) (c + cycles sr (frames.map Prod.snd)) p' ∧ values.length = frames.length ∧
      ∀ n < frames.length, ∃ q v, At (d + ((n + 1 : ℕ) : ℚ) * (3 / 2 ^ 54))
        (c + cycles sr ((frames.map Prod.snd).take (n + 1))) q ∧ q < 1 ∧
        (⟨q, table⟩ : Oscillator64).getValue = .ok v ∧ values[n]? = some (Float32.round v)) ∨
    (fill fuel sr ⟨p, table⟩ frames = .error .panic ∧ ∃ n < frames.length,
      NearWhole (d + ((n + 1 : ℕ) : ℚ) * (3 / 2 ^ 54)) (c + cycles sr ((frames.map Prod.snd).take (n + 1)))) := by
  induction frames with
  | nil =>
    intro d c p h
    exact .inl ⟨p, [], rfl, by simpa [cycles] using h, rfl, fun n hn => absurd hn (by simp)⟩
  | cons x frames ih =>
    intro d c p h
    obtain ⟨a, f⟩ := x
    obtain ⟨h0, h1, h2, k, hk⟩ := h
    obtain ⟨hf0, hf1⟩ := hf (a, f) (by simp)
    obtain ⟨q, q1, q2, q3, q4, j, -, q6, -⟩ := step hfuel sr ⟨p, table⟩ f h0 h1 hf0 hf1
    simp only at hf0 hf1 q1 q6
    have hq : At (d + 3 / 2 ^ 54) (c + f / sr) q := by
      refine ⟨q2, q3, q4, j + k, ?_⟩
      have e : q + ((j + k : ℤ) : ℚ) - (c + f / sr) = (q + j - (p + f / sr)) + (p + k - c) := by push_cast; ring
      rw [e]
      refine (abs_add_le _ _).trans ?_
      linarith
    obtain ⟨g1, g2⟩ := getValue_cases ⟨q, table⟩ q2 q3 q4 ht ht'
    simp only at g1 g2
    rcases q3.eq_or_lt with hq1 | hq1
    · right
      have := g1 hq1
      refine ⟨?_, 0, by simp, ?_⟩
      · rw [fill, q1]
        simp only [bind, Except.bind]
        rw [this]
      · obtain ⟨-, -, -, i, hi⟩ := hq
        refine ⟨1 + i, ?_⟩
        rw [abs_sub_comm]
        rw [hq1] at hi
        simpa [cycles_cons, cycles] using hi
    · have hv := g2 hq1
      generalize (interpolate (table.getD ⌊Float64.round (q * (table.length : ℚ))⌋₊ 0)
        (table.getD ⌈Float64.round (q * (table.length : ℚ))⌉₊ 0)
        (Float64.round (Float64.round (q * (table.length : ℚ)) - ⌊Float64.round (q * (table.length : ℚ))⌋))) = v at hv
      have hstep : fill fuel sr ⟨p, table⟩ ((a, f) :: frames) = (do
          let (o, values) ← fill fuel sr ⟨q, table⟩ frames
          return (o, Float32.round v :: values)) := by
        rw [fill, q1]
        simp only [bind, Except.bind]
        rw [hv]
      have hz : ∀ n : ℕ, d + 3 / 2 ^ 54 + ((n + 1 : ℕ) : ℚ) * (3 / 2 ^ 54) = d + ((n + 1 + 1 : ℕ) : ℚ) * (3 / 2 ^ 54) := by
        intro n
        push_cast
        ring
      have hc : ∀ l, c + f / sr + cycles sr l = c + cycles sr (f :: l) := by
        intro l
        rw [cycles_cons]
        ring
      rcases ih (fun x hx => hf x (List.mem_cons_of_mem _ hx)) _ _ q hq with ⟨p', values, i1, i2, i3, i4⟩ | ⟨i1, n, i2, i3⟩
      · left
        refine ⟨p', Float32.round v :: values, ?_, ?_, by simp [i3], ?_⟩
        · rw [hstep, i1]
          rfl
        · rw [hc] at i2
          have e : d + 3 / 2 ^ 54 + (frames.length : ℚ) * (3 / 2 ^ 54) =
              d + ((((a, f) :: frames).length : ℕ) : ℚ) * (3 / 2 ^ 54) := by
            push_cast [List.length_cons]
            ring
          rw [e] at i2
          exact i2
        · intro n hn
          rcases n with _ | n
          · refine ⟨q, v, ?_, hq1, hv, rfl⟩
            simpa [cycles_cons, cycles] using hq
          · obtain ⟨q', v', w1, w2, w3, w4⟩ := i4 n (by simpa using hn)
            rw [hz, hc] at w1
            exact ⟨q', v', w1, w2, w3, w4⟩
      · right
        refine ⟨by rw [hstep, i1]; rfl, n + 1, by simpa using i2, ?_⟩
        rw [hz, hc] at i3
        exact i3

/-- Without any rounding of the phase, filling fails exactly at a whole number of cycles. -/
theorem fill_exact {fuel : ℕ} (hfuel : 2 ≤ fuel) (sr : ℕ) (table : List ℚ) (ht : 0 < table.length)
    (ht' : table.length < 2 ^ 52) (frames : List (ℚ × ℚ))
    (hf : ∀ x ∈ frames, ∃ q : ℕ, 0 < q ∧ q ≤ 2 ^ 52 ∧ x.2 / sr = q / 2 ^ 52) :
    ∀ c p : ℚ, (∃ k : ℕ, k ≤ 2 ^ 52 ∧ p = k / 2 ^ 52) → (∃ j : ℤ, p = c - j) →
    ((∃ n < frames.length, ∃ j : ℤ, c + cycles sr ((frames.map Prod.snd).take (n + 1)) = j) →
      fill fuel sr ⟨p, table⟩ frames = .error .panic) ∧
    ((∀ n < frames.length, ∀ j : ℤ, c + cycles sr ((frames.map Prod.snd).take (n + 1)) ≠ j) →
      ∃ r, fill fuel sr ⟨p, table⟩ frames = .ok r) := by
  induction frames with
  | nil =>
    intro c p _ _
    exact ⟨fun ⟨n, hn, _⟩ => absurd hn (by simp), fun _ => ⟨_, rfl⟩⟩
  | cons x frames ih =>
    intro c p hp hc
    obtain ⟨a, f⟩ := x
    obtain ⟨k, hk, rfl⟩ := hp
    obtain ⟨j, hj⟩ := hc
    obtain ⟨q, q0, q1, q2⟩ := hf (a, f) (by simp)
    simp only at q2
    have q0' : (0 : ℚ) < q := by exact_mod_cast q0
    have q1' : (q : ℚ) ≤ 2 ^ 52 := by exact_mod_cast q1
    have hk' : (k : ℚ) ≤ 2 ^ 52 := by exact_mod_cast hk
    have b0 : (0 : ℚ) ≤ k / 2 ^ 52 := by positivity
    have b1 : (k : ℚ) / 2 ^ 52 ≤ 1 := by rw [div_le_iff₀ (by positivity)]; linarith
    have f0 : 0 ≤ f / sr := by rw [q2]; positivity
    have f1 : f / sr ≤ 1 := by rw [q2, div_le_iff₀ (by positivity)]; linarith
    obtain ⟨s, s1, s2, s3, s4, i, s5, -, s6⟩ := step hfuel sr ⟨k / 2 ^ 52, table⟩ f b0 b1 f0 f1
    have er : Float64.round (f / sr) = q / 2 ^ 52 := by
      rw [q2]
      exact round_rep (by positivity) (rep_52 (by omega))
    have es : Float64.round ((k : ℚ) / 2 ^ 52 + Float64.round (f / sr)) = ((k + q : ℕ) : ℚ) / 2 ^ 52 := by
      rw [er, ← add_div, ← Nat.cast_add]
      exact round_rep (by positivity) (rep_52 (by omega))
    simp only at s1 s5 s6
    rw [es] at s5 s6
    have sp : 0 < s := s6 (by push_cast; positivity)
    have hsc : s = c + f / sr - ((i + j : ℤ) : ℚ) := by
      have : s = ((k + q : ℕ) : ℚ) / 2 ^ 52 - i := by linarith
      rw [this, q2]
      push_cast
      rw [add_div, hj]
      ring
    have hsk : ∃ k' : ℕ, k' ≤ 2 ^ 52 ∧ s = k' / 2 ^ 52 := by
      have e : s * 2 ^ 52 = ((k + q - i * 2 ^ 52 : ℤ) : ℚ) := by
        have : s = ((k + q : ℕ) : ℚ) / 2 ^ 52 - i := by linarith
        rw [this]
        push_cast
        field_simp
        norm_num
        ring
      generalize (k + q - i * 2 ^ 52 : ℤ) = w at e
      have w0 : (0 : ℚ) < w := by rw [← e]; positivity
      have w1 : (w : ℚ) ≤ ((2 ^ 52 : ℤ) : ℚ) := by
        rw [← e]
        push_cast
        nlinarith
      have w0 : 0 < w := by exact_mod_cast w0
      have w1 : w ≤ 2 ^ 52 := by exact_mod_cast w1
      refine ⟨w.toNat, by omega, ?_⟩
      rw [eq_div_iff (by positivity), e]
      have : ((w.toNat : ℤ) : ℚ) = w := by rw [Int.toNat_of_nonneg (by omega)]
      exact_mod_cast this.symm
    have hcc : ∀ l, c + f / sr + cycles sr l = c + cycles sr (f :: l) := by
      intro l
      rw [cycles_cons]
      ring
    have hfirst : c + cycles sr ((((a, f) :: frames).map Prod.snd).take (0 + 1)) = c + f / sr := by
      simp [cycles]
    obtain ⟨g1, g2⟩ := getValue_cases ⟨s, table⟩ s2 s3 s4 ht ht'
    simp only at g1 g2
    rcases s3.eq_or_lt with hs1 | hs1
    · have := g1 hs1
      refine ⟨fun _ => ?_, fun hno => ?_⟩
      · rw [fill, s1]
        simp only [bind, Except.bind]
        rw [this]
      · exfalso
        refine hno 0 (by simp) (1 + i + j) ?_
        rw [hfirst]
        push_cast at hsc ⊢
        linarith
    · obtain ⟨v, hv⟩ : ∃ v, (⟨s, table⟩ : Oscillator64).getValue = .ok v := ⟨_, g2 hs1⟩
      have hstep : fill fuel sr ⟨k / 2 ^ 52, table⟩ ((a, f) :: frames) = (do
          let (o, values) ← fill fuel sr ⟨s, table⟩ frames
          return (o, Float32.round v :: values)) := by
        rw [fill, s1]
        simp only [bind, Except.bind]
        rw [hv]
      obtain ⟨i1, i2⟩ := ih (fun x hx => hf x (List.mem_cons_of_mem _ hx)) (c + f / sr) s hsk ⟨_, hsc⟩
      have hnot : ∀ l : ℤ, c + f / sr ≠ l := by
        intro l hl
        rw [hl] at hsc
        have e : s = ((l - (i + j) : ℤ) : ℚ) := by push_cast at hsc ⊢; linarith
        rw [e] at sp hs1
        have z1 : 0 < l - (i + j) := by exact_mod_cast sp
        have z2 : l - (i + j) < 1 := by exact_mod_cast hs1
        omega
      refine ⟨fun ⟨n, hn, l, hl⟩ => ?_, fun hno => ?_⟩
      · rcases n with _ | n
        · rw [hfirst] at hl
          exact absurd hl (hnot l)
        · rw [hstep, i1 ⟨n, by simpa using hn, l, by rw [hcc]; exact hl⟩]
          rfl
      · obtain ⟨r, hr⟩ := i2 (fun n hn l => by
          rw [hcc]
          exact hno (n + 1) (by simpa using hn) l)
        rw [hstep, hr]
        exact ⟨_, rfl⟩

theorem fill_append (fuel sr : ℕ) (a b : List (ℚ × ℚ)) : ∀ o : Oscillator64, fill fuel sr o (a ++ b) = (do
    let (o1, v1) ← fill fuel sr o a
    let (o2, v2) ← fill fuel sr o1 b
    return (o2, v1 ++ v2)) := by
  induction a with
  | nil =>
    intro o
    rw [List.nil_append]
    simp only [fill, bind, Except.bind, pure, Except.pure, List.nil_append]
    cases fill fuel sr o b <;> rfl
  | cons x a ih =>
    intro o
    obtain ⟨y, f⟩ := x
    rw [List.cons_append, fill, fill]
    simp only [bind, Except.bind, pure, Except.pure]
    cases o.incrementPhase fuel f sr with
    | error e => rfl
    | ok o1 =>
      simp only
      cases o1.getValue with
      | error e => rfl
      | ok v =>
        simp only
        rw [ih]
        simp only [bind, Except.bind, pure, Except.pure]
        cases fill fuel sr o1 a with
        | error e => rfl
        | ok r =>
          simp only
          cases fill fuel sr r.1 b <;> rfl

/-- Blocks are as one. -/
theorem play_fill (fuel sr : ℕ) (blocks : List (List (ℚ × ℚ))) : ∀ o : Oscillator64,
    (∀ e, play fuel sr o blocks = .error e ↔ fill fuel sr o blocks.flatten = .error e) ∧
    ∀ o' outs, play fuel sr o blocks = .ok (o', outs) → fill fuel sr o blocks.flatten = .ok (o', outs.flatten) := by
  induction blocks with
  | nil =>
    intro o
    simp [play, fill]
  | cons b blocks ih =>
    intro o
    rw [List.flatten_cons, play, fill_append]
    simp only [bind, Except.bind, pure, Except.pure]
    cases h : fill fuel sr o b with
    | error e =>
      exact ⟨fun e' => by simp, fun o' outs h' => by simp at h'⟩
    | ok r =>
      simp only
      obtain ⟨i1, i2⟩ := ih r.1
      cases hp : play fuel sr r.1 blocks with
      | error e =>
        rw [(i1 e).mp hp]
        exact ⟨fun e' => by simp, fun o' outs h' => by simp at h'⟩
      | ok w =>
        rw [i2 w.1 w.2 hp]
        simp only
        refine ⟨fun e' => ?_, ?_⟩
        · simp
        · intro o' outs h'
          simp only [Except.ok.injEq, Prod.mk.injEq] at h'
          obtain ⟨rfl, rfl⟩ := h'
          rfl

theorem fill_length (fuel sr : ℕ) (frames : List (ℚ × ℚ)) : ∀ (o o' : Oscillator64) values,
    fill fuel sr o frames = .ok (o', values) → values.length = frames.length := by
  induction frames with
  | nil =>
    intro o o' values h
    simp only [fill, Except.ok.injEq, Prod.mk.injEq] at h
    simp [← h.2]
  | cons x frames ih =>
    intro o o' values h
    obtain ⟨y, f⟩ := x
    rw [fill] at h
    simp only [bind, Except.bind, pure, Except.pure] at h
    cases h1 : o.incrementPhase fuel f sr with
    | error e => rw [h1] at h; simp at h
    | ok o1 =>
      rw [h1] at h
      simp only at h
      cases h2 : o1.getValue with
      | error e => rw [h2] at h; simp at h
      | ok v =>
        rw [h2] at h
        simp only at h
        cases h3 : fill fuel sr o1 frames with
        | error e => rw [h3] at h; simp at h
        | ok r =>
          rw [h3] at h
          simp only [Except.ok.injEq, Prod.mk.injEq] at h
          rw [← h.2, List.length_cons, ih o1 r.1 r.2 h3, List.length_cons]

theorem play_length (fuel sr : ℕ) (blocks : List (List (ℚ × ℚ))) : ∀ (o o' : Oscillator64) outs,
    play fuel sr o blocks = .ok (o', outs) → outs.map List.length = blocks.map List.length := by
  induction blocks with
  | nil =>
    intro o o' outs h
    simp only [play, Except.ok.injEq, Prod.mk.injEq] at h
    simp [← h.2]
  | cons b blocks ih =>
    intro o o' outs h
    rw [play] at h
    simp only [bind, Except.bind, pure, Except.pure] at h
    cases h1 : o.fill fuel sr b with
    | error e => rw [h1] at h; simp at h
    | ok r =>
      rw [h1] at h
      simp only at h
      cases h3 : play fuel sr r.1 blocks with
      | error e => rw [h3] at h; simp at h
      | ok w =>
        rw [h3] at h
        simp only [Except.ok.injEq, Prod.mk.injEq] at h
        rw [← h.2, List.map_cons, ih r.1 w.1 w.2 h3, fill_length fuel sr b o r.1 r.2 h1, List.map_cons]

end Oscillator64
end Rawdio
