import Verif.Model.ParameterFloat
import Verif.Lemmas.FloatRound
import Verif.Props.Parameter

/-! Helper lemmas about the parameters in the arithmetic of `f64`. -/

namespace Rawdio
namespace Float64

open Float32 (grid_error round64_zero round64_neg)

theorem rep_neg {x : ℚ} (h : Rep x) : Rep (-x) := by
  obtain ⟨m, e, rfl, hm, he⟩ := h
  exact ⟨-m, e, by push_cast; ring, by rwa [abs_neg], he⟩

/-- The result of a rounding is an `f64`, whatever its sign. -/
theorem rep_of_round (x : ℚ) : Rep (round x) := by
  rcases le_total 0 x with h | h
  · exact rep_round h
  · have h1 := rep_neg (rep_round (x := -x) (by linarith))
    rwa [round64_neg, neg_neg] at h1

/-- An `f64` is not rounded, whatever its sign. -/
theorem round_of_rep {x : ℚ} (h : Rep x) : round x = x := by
  rcases le_total 0 x with h0 | h0
  · exact round_rep h0 h
  · have h1 := round_rep (x := -x) (by linarith) (rep_neg h)
    rw [round64_neg] at h1
    linarith

/-- The error of a rounding in proportion to the number. -/
theorem round_rel (x : ℚ) : |round x - x| ≤ |x| * (1 / 2 ^ 53) + 1 / 2 ^ 1075 := by
  rcases eq_or_ne x 0 with rfl | h0
  · rw [round64_zero, sub_zero, abs_zero, zero_mul, zero_add]
    positivity
  have h := grid_error (ulp_pos x) x
  rw [← round_grid] at h
  have hp : 0 < |x| := abs_pos.mpr h0
  have hl : (2 : ℚ) ^ (Int.log 2 |x|) ≤ |x| := by
    exact_mod_cast Int.zpow_log_le_self (b := 2) (by norm_num) hp
  have hu : ulp x ≤ |x| * (1 / 2 ^ 52) + 1 / 2 ^ 1074 := by
    rw [ulp_eq]
    unfold unitLog
    rcases max_choice (Int.log 2 |x| - 52) (-1074) with hm | hm
    · rw [hm, zpow_sub₀ (by norm_num)]
      have : (2 : ℚ) ^ (Int.log 2 |x|) / 2 ^ (52 : ℤ) ≤ |x| * (1 / 2 ^ 52) := by
        rw [div_eq_mul_one_div]
        refine mul_le_mul hl ?_ (by positivity) hp.le
        norm_cast
      have h2 : (0 : ℚ) ≤ 1 / 2 ^ 1074 := by positivity
      linarith
    · rw [hm, zpow_neg, ← one_div]
      have : (0 : ℚ) ≤ |x| * (1 / 2 ^ 52) := by positivity
      have e : (1 : ℚ) / 2 ^ (1074 : ℤ) = 1 / 2 ^ 1074 := by norm_cast
      rw [e]
      linarith
  have e1 : (1 : ℚ) / 2 ^ 1075 = 1 / 2 ^ 1074 / 2 := by rw [pow_succ (2 : ℚ) 1074]; field_simp
  have e2 : (1 : ℚ) / 2 ^ 53 = 1 / 2 ^ 52 / 2 := by norm_num
  rw [e1, e2]
  have : |x| * (1 / 2 ^ 52 / 2) = |x| * (1 / 2 ^ 52) / 2 := by ring
  rw [this]
  linarith

end Float64

namespace Timestamp

/-- In the first 24 days the conversion of a timestamp to `f64` rounds nothing. -/
theorem asSamplesFloat_early (t : Int) (sr : Nat) (h : |t| < 2 ^ 53) :
    asSamplesFloat t sr = Float64.round (asSamples t sr) := by
  have hr : Float64.Rep ((t : ℚ) / one) := by
    refine ⟨t, -32, ?_, h, by norm_num⟩
    unfold one
    rw [zpow_neg, div_eq_mul_inv]
    norm_num
  unfold asSamplesFloat
  rw [Float64.round_of_rep hr]
  rfl

end Timestamp

namespace RealtimeParameter

variable {V : Type}

/-- A linear ramp in progress, in any arithmetic. -/
theorem steps_ramp_any (A : Arith V) (sr : Nat) (inc : V) (ts : List Int) : ∀ (p : RealtimeParameter V),
    p.changes = [] → p.coefficient = A.one → p.increment = inc → ts.Pairwise (· ≤ ·) →
    ∀ (j : Nat) (t : Int), ts[j]? = some t → (steps A sr p ts).1[j]? =
      some (if t < p.current.endTime then (fun x => A.add (A.mul x A.one) inc)^[j + 1] p.value
        else p.current.value) := by
  induction ts with
  | nil => intro p _ _ _ _ j t h; simp at h
  | cons u ts ih =>
    intro p hc hco hin hp j t h
    obtain ⟨p1, p2⟩ := List.pairwise_cons.mp hp
    have hb : begin A p u sr p.value = p :=
      begin_none _ _ _ _ _ (by intro c rest h'; rw [hc] at h'; cases h')
    have hst : step A sr p u = { p with value := advance A p u p.value } := by
      unfold step valueAtTime
      simp only [hb]
    have hv : advance A p u p.value =
        if u < p.current.endTime then A.add (A.mul p.value A.one) inc else p.current.value := by
      unfold advance
      rw [hco, hin]
      by_cases hh : p.current.endTime ≤ u
      · rw [if_pos hh, if_neg (by omega)]
      · rw [if_neg hh, if_pos (by omega)]
    rw [steps]
    cases j with
    | zero =>
      simp at h
      subst h
      simp only [List.getElem?_cons_zero]
      rw [hst]
      simp only
      rw [hv]
      rfl
    | succ j =>
      simp only [List.getElem?_cons_succ] at h ⊢
      have := ih (step A sr p u) (by rw [hst]; exact hc) (by rw [hst]; exact hco)
        (by rw [hst]; exact hin) p2 j t h
      rw [this, hst]
      simp only
      congr 1
      by_cases ht : t < p.current.endTime
      · rw [if_pos ht, if_pos ht, hv, if_pos (by
          have := p1 t (List.mem_of_getElem? h); omega), Function.iterate_succ_apply _ (j + 1)]
      · rw [if_neg ht, if_neg ht]

/-- What happens in a linear ramp, in any arithmetic. -/
theorem ramp_values_any (A : Arith V) {sr : Nat} {p : RealtimeParameter V} {w : V} {s e : Int}
    {bs : List (Int × Nat)} {pre : List Int} {t0 : Int} {rest : List Int}
    (h : RampCase sr p w s e bs pre t0 rest) (inc : V) (hincdef : inc = slope A w p.value e t0 sr)
    (hinc : bs.length = 1 ∨ A.near inc A.zero = false) :
    (∀ j, j < pre.length → (processAll A sr p bs).1[j]? = some p.value) ∧
    ∀ (j : Nat) (t : Int), (t0 :: rest)[j]? = some t →
      (processAll A sr p bs).1[pre.length + j]? =
        some (if t < e then (fun x => A.add (A.mul x A.one) inc)^[j + 1] p.value else w) := by
  -- the state once the ramp has begun
  have hpre : ∀ t ∈ pre, step A sr p t = p := by
    intro t ht
    obtain ⟨b1, b2, b3⟩ := h.before t ht
    refine step_idle _ _ _ _ ?_ b2 b3
    intro c rest' hc
    rw [h.pending] at hc
    injection hc with h1 h2
    subst h1
    exact b1
  obtain ⟨q, hq⟩ : ∃ q : RealtimeParameter V, q = { p with
    changes := [], increment := inc, coefficient := A.one, current := ⟨w, e, .linear s⟩ } := ⟨_, rfl⟩
  have hbegin : begin A p t0 sr p.value = q := by
    unfold begin
    rw [h.pending]
    simp only
    rw [if_pos h.start, ← hincdef, hq]
  have hqb : ∀ t, begin A q t sr q.value = q := by
    intro t
    refine begin_none _ _ _ _ _ ?_
    intro c rest' hc
    rw [hq] at hc
    cases hc
  have hfirst : step A sr p t0 = step A sr q t0 := by
    have hv : q.value = p.value := by rw [hq]
    have h2 : begin A q t0 sr p.value = q := by
      have := hqb t0
      rwa [hv] at this
    unfold step valueAtTime
    rw [hv]
    simp only [hbegin, h2]
  have hsteps : steps A sr p (frameTimes sr bs) =
      (List.replicate pre.length p.value ++ (steps A sr q (t0 :: rest)).1,
        (steps A sr q (t0 :: rest)).2) := by
    rw [h.times, steps_append, steps_fixed _ _ _ _ hpre]
    simp only [steps]
    rw [hfirst]
  have hstepq : ∀ x : RealtimeParameter V, x.changes = [] → x.increment = inc → ∀ t,
      (step A sr x t).changes = [] ∧ (step A sr x t).increment = inc := by
    intro x h1 h2 t
    have : begin A x t sr x.value = x :=
      begin_none _ _ _ _ _ (by intro c rest' hc; rw [h1] at hc; cases hc)
    unfold step valueAtTime
    simp only [this]
    exact ⟨h1, h2⟩
  have hall : processAll A sr p bs = steps A sr p (frameTimes sr bs) := by
    rcases hinc with hone | hbig
    · match bs, hone with
      | [b], _ =>
        rw [show b = (b.1, b.2) from rfl]
        unfold processAll processAll
        dsimp only
        rw [process_steps]
        · simp [frameTimes]
        · unfold isStatic; rw [h.pending]; simp
    · refine (processAll_steps A sr
        (fun x ts => (x = p ∧ ∃ pre', (∀ t ∈ pre', t ∈ pre) ∧ ts = pre' ++ t0 :: rest) ∨
          (x.changes = [] ∧ x.increment = inc)) ?_ ?_ bs p (.inl ⟨rfl, pre, fun _ h => h, h.times⟩)).1
      · rintro x t ts (⟨rfl, pre', g1, g2⟩ | ⟨g1, g2⟩)
        · cases pre' with
          | nil =>
            injection g2 with g2 g3
            subst g2
            rw [hfirst]
            exact .inr (hstepq q (by rw [hq]) (by rw [hq]) t)
          | cons u pre' =>
            injection g2 with g2 g3
            subst g2
            rw [hpre t (g1 t List.mem_cons_self)]
            exact .inl ⟨rfl, pre', fun y hy => g1 y (List.mem_cons_of_mem _ hy), g3⟩
        · exact .inr (hstepq x g1 g2 t)
      · rintro x ts (⟨rfl, _⟩ | ⟨g1, g2⟩) hs
        · unfold isStatic at hs
          rw [h.pending] at hs
          simp at hs
        · unfold isStatic at hs
          rw [g2, hbig] at hs
          simp at hs
  rw [hall, hsteps]
  constructor
  · intro j hj
    simp only
    rw [List.getElem?_append_left (by simpa using hj), List.getElem?_replicate, if_pos hj]
  · intro j t ht
    simp only
    have ho : (t0 :: rest).Pairwise (· ≤ ·) := by
      have := h.ordered
      rw [h.times] at this
      exact (List.pairwise_append.mp this).2.1
    rw [List.getElem?_append_right (by simp), List.length_replicate, Nat.add_sub_cancel_left,
      steps_ramp_any A sr inc (t0 :: rest) q (by rw [hq]) (by rw [hq]) (by rw [hq]) ho j t ht]
    rw [hq]

/-- The exact position in samples. -/
theorem asSamples_eq (t : Int) (sr : Nat) : Timestamp.asSamples t sr = (t : ℚ) * sr / 2 ^ 32 := by
  unfold Timestamp.asSamples Timestamp.asSeconds Timestamp.one
  norm_num
  ring

/-- How far the computed increment is from the exact one. -/
theorem slope_float (w v E T : ℚ) (hT : 0 ≤ T) (hn : 1 ≤ E - T) (hE : E ≤ 2 ^ 46) :
    |Float64.round (Float64.round (w - v) / Float64.round (Float64.round E - Float64.round T)) -
      (w - v) / (E - T)| ≤ 16 * (E / (E - T)) * |(w - v) / (E - T)| * (1 / 2 ^ 53) + 4 * (1 / 2 ^ 1075) := by
  have hE0 : 0 ≤ E := by linarith
  have a1 := Float64.round_rel E
  have a2 := Float64.round_rel T
  have a3 := Float64.round_rel (Float64.round E - Float64.round T)
  have a4 := Float64.round_rel (w - v)
  obtain ⟨d, hd⟩ : ∃ d, d = Float64.round (Float64.round E - Float64.round T) := ⟨_, rfl⟩
  obtain ⟨c, hc⟩ : ∃ c, c = Float64.round (w - v) := ⟨_, rfl⟩
  have a5 := Float64.round_rel (c / d)
  rw [← hd, ← hc]
  rw [← hd] at a3
  rw [← hc] at a4
  generalize Float64.round (c / d) = g at a5 ⊢
  generalize Float64.round E = rE at a1 a3 hd
  generalize Float64.round T = rT at a2 a3 hd
  generalize w - v = D at a4 ⊢
  have he : (0 : ℚ) ≤ 1 / 2 ^ 1075 ∧ (1 : ℚ) / 2 ^ 1075 ≤ 1 / 2 ^ 60 := by
    constructor
    · positivity
    · exact one_div_le_one_div_of_le (by positivity) (pow_le_pow_right₀ (by norm_num) (by norm_num))
  generalize (1 : ℚ) / 2 ^ 1075 = z at *
  obtain ⟨z0, z1⟩ := he
  have hu : ∃ u : ℚ, u = 1 / 2 ^ 53 := ⟨_, rfl⟩
  obtain ⟨u, hu⟩ := hu
  rw [← hu] at a1 a2 a3 a4 a5 ⊢
  have hu0 : 0 < u := by rw [hu]; positivity
  have hz : 3 * z ≤ u := by rw [hu]; refine (mul_le_mul_of_nonneg_left z1 (by norm_num)).trans ?_; norm_num
  have hEu : E * u ≤ 1 / 128 := by
    have := mul_le_mul_of_nonneg_right hE hu0.le
    rw [hu] at this ⊢
    refine this.trans ?_
    norm_num
  have hu1 : u ≤ 1 / 128 := by rw [hu]; norm_num
  rw [abs_of_nonneg hE0] at a1
  rw [abs_of_nonneg hT] at a2
  have hTu : T * u ≤ E * u := mul_le_mul_of_nonneg_right (by linarith) hu0.le
  have hE1 : 1 ≤ E := by linarith
  have hEu' : u ≤ E * u := le_mul_of_one_le_left hu0.le hE1
  obtain ⟨a1l, a1r⟩ := abs_le.mp a1
  obtain ⟨a2l, a2r⟩ := abs_le.mp a2
  have b1 : |rE - rT| ≤ 2 * E := by
    rw [abs_le]
    constructor <;> linarith
  have b2 : |rE - rT| * u ≤ 2 * (E * u) := by
    have := mul_le_mul_of_nonneg_right b1 hu0.le
    linarith
  obtain ⟨a3l, a3r⟩ := abs_le.mp a3
  obtain ⟨n, hnd⟩ : ∃ n, n = E - T := ⟨_, rfl⟩
  rw [← hnd] at hn ⊢
  have hdn : |d - n| ≤ 5 * (E * u) := by
    rw [abs_le]
    constructor <;> linarith
  obtain ⟨d1, d2⟩ := abs_le.mp hdn
  have hdh : n / 2 ≤ d := by linarith
  have hn0 : 0 < n := by linarith
  have hd0 : 0 < d := by linarith
  -- reciprocals
  obtain ⟨r, hr⟩ : ∃ r, r = 1 / n := ⟨_, rfl⟩
  obtain ⟨q, hq⟩ : ∃ q, q = 1 / d := ⟨_, rfl⟩
  have hr0 : 0 < r := by rw [hr]; positivity
  have hq0 : 0 < q := by rw [hq]; positivity
  have hr1 : r ≤ 1 := by rw [hr, div_le_one hn0]; exact hn
  have hqr : q ≤ 2 * r := by
    rw [hq, hr, div_le_iff₀ hd0]
    have : 2 * (1 / n) * d = d / (n / 2) := by field_simp
    rw [this, one_le_div (by positivity)]
    exact hdh
  have hqd : |q - r| ≤ 10 * (E * u) * (r * r) := by
    have e : q - r = -(d - n) * (q * r) := by rw [hq, hr]; field_simp; ring
    rw [e, abs_mul, abs_neg, abs_of_pos (mul_pos hq0 hr0)]
    calc |d - n| * (q * r) ≤ 5 * (E * u) * (2 * r * r) :=
          mul_le_mul hdn (mul_le_mul_of_nonneg_right hqr hr0.le) (mul_pos hq0 hr0).le (by positivity)
      _ = _ := by ring
  rw [div_eq_mul_one_div c d, ← hq] at a5
  rw [div_eq_mul_one_div D n, div_eq_mul_one_div E n, ← hr, abs_mul, abs_of_pos hr0]
  have hD0 := abs_nonneg D
  generalize hDa : |D| = A at *
  have hEr : 1 ≤ E * r := by
    rw [hr, mul_one_div, one_le_div hn0]
    linarith
  -- the pieces
  have p1 : |c * q - D * r| ≤ (A * u + z) * (2 * r) + A * (10 * (E * u) * (r * r)) := by
    have e : c * q - D * r = (c - D) * q + D * (q - r) := by ring
    rw [e]
    refine (abs_add_le _ _).trans (add_le_add ?_ ?_)
    · rw [abs_mul, abs_of_pos hq0]
      exact mul_le_mul a4 hqr hq0.le (by positivity)
    · rw [abs_mul, hDa]
      exact mul_le_mul_of_nonneg_left hqd hD0
  have p2 : |c * q| ≤ (A + (A * u + z)) * (2 * r) := by
    rw [abs_mul, abs_of_pos hq0]
    refine mul_le_mul ?_ hqr hq0.le (by positivity)
    have : c = D + (c - D) := by ring
    rw [this]
    refine (abs_add_le _ _).trans ?_
    rw [hDa]
    linarith
  have p3 := mul_le_mul_of_nonneg_right p2 hu0.le
  have p4 : |g - D * r| ≤ |g - c * q| + |c * q - D * r| := abs_sub_le _ _ _
  have hAr : 0 ≤ A * r * u := by positivity
  have hArE : A * r * u ≤ E * r * (A * r * u) := le_mul_of_one_le_left hAr hEr
  have hAruu : A * r * u * u ≤ A * r * u := mul_le_of_le_one_right hAr (by linarith)
  have hzr : z * r ≤ z := mul_le_of_le_one_right z0 hr1
  have hzr0 : 0 ≤ z * r := by positivity
  have hzru : z * r * u ≤ z * r * (1 / 128) := mul_le_mul_of_nonneg_left hu1 hzr0
  linarith

/-- Repeated addition with rounding. -/
theorem drift (v a h B : ℚ) (hv : Float64.Rep v) (K : Nat) (hB : ∀ k : Nat, k ≤ K → |v + k * a| ≤ B)
    (hK : K * (|h - a| + 2 * B * (1 / 2 ^ 53) + 1 / 2 ^ 1075) ≤ B) :
    ∀ k : Nat, k ≤ K → Float64.Rep ((fun x => Float64.round (Float64.round (x * 1) + h))^[k] v) ∧
      |(fun x => Float64.round (Float64.round (x * 1) + h))^[k] v - (v + k * a)| ≤
        k * (|h - a| + 2 * B * (1 / 2 ^ 53) + 1 / 2 ^ 1075) := by
  have hB0 : 0 ≤ B := (abs_nonneg _).trans (hB 0 (by omega))
  have hz : (0 : ℚ) ≤ 1 / 2 ^ 1075 := by positivity
  intro k
  induction k with
  | zero => intro _; refine ⟨hv, ?_⟩; simp
  | succ k ih =>
    intro hk
    obtain ⟨i1, i2⟩ := ih (by omega)
    rw [Function.iterate_succ_apply']
    generalize (fun x => Float64.round (Float64.round (x * 1) + h))^[k] v = x at i1 i2 ⊢
    rw [mul_one, Float64.round_of_rep i1]
    refine ⟨Float64.rep_of_round _, ?_⟩
    have e := Float64.round_rel (x + h)
    have b := hB (k + 1) hk
    push_cast at b ⊢
    generalize (1 : ℚ) / 2 ^ 1075 = z at *
    obtain ⟨u, hu⟩ : ∃ u : ℚ, u = 1 / 2 ^ 53 := ⟨_, rfl⟩
    rw [← hu] at hK i2 e ⊢
    have hu0 : 0 ≤ u := by rw [hu]; positivity
    obtain ⟨D, hD⟩ : ∃ D, D = |h - a| + 2 * B * u + z := ⟨_, rfl⟩
    rw [← hD] at hK i2 ⊢
    have hD0 : 0 ≤ D := by rw [hD]; positivity
    have hKD : ((k : ℚ) + 1) * D ≤ B := by
      refine le_trans (mul_le_mul_of_nonneg_right ?_ hD0) hK
      exact_mod_cast hk
    have hha : |h - a| ≤ D := by rw [hD]; have : 0 ≤ 2 * B * u := by positivity
                                 linarith
    have c1 : |x + h - (v + (k + 1) * a)| ≤ k * D + |h - a| := by
      have : x + h - (v + (k + 1) * a) = (x - (v + k * a)) + (h - a) := by ring
      rw [this]
      exact (abs_add_le _ _).trans (by linarith)
    have c2 : |x + h| ≤ 2 * B := by
      have : x + h = (x + h - (v + (k + 1) * a)) + (v + (k + 1) * a) := by ring
      rw [this]
      refine (abs_add_le _ _).trans ?_
      linarith
    have c3 := mul_le_mul_of_nonneg_right c2 hu0
    have c4 := abs_sub_le (Float64.round (x + h)) (x + h) (v + (k + 1) * a)
    have : ((k : ℚ) + 1) * D = k * D + D := by ring
    rw [this]
    linarith

/-- Rounding a fraction to the nearest whole number. -/
theorem roundHalfEven_nat (s U : Nat) (hU0 : 0 < U) : Timestamp.roundHalfEven ((s : ℚ) / U) =
    ((if 2 * (s % U) < U then s / U else if U < 2 * (s % U) then s / U + 1
      else if s / U % 2 = 0 then s / U else s / U + 1 : Nat) : Int) := by
  have hUq : (0 : ℚ) < U := by exact_mod_cast hU0
  have hdm : (s : ℚ) / U = (s / U : Nat) + (s % U : Nat) / U := by
    have := Nat.div_add_mod s U
    have h2 : ((U * (s / U) + s % U : Nat) : ℚ) = s := by rw [this]
    rw [div_eq_iff hUq.ne', add_mul, div_mul_cancel₀ _ hUq.ne', ← h2]
    push_cast
    ring
  have hmod : s % U < U := Nat.mod_lt _ hU0
  generalize s / U = a at *
  generalize s % U = b at *
  have hb0 : (0 : ℚ) ≤ b / U := by positivity
  have hb1 : (b : ℚ) / U < 1 := by rw [div_lt_one hUq]; exact_mod_cast hmod
  have hfl : ⌊(a : ℚ) + b / U⌋ = a := by
    rw [Int.floor_eq_iff]
    push_cast
    constructor <;> linarith
  rw [hdm]
  unfold Timestamp.roundHalfEven
  simp only [hfl]
  have hfr : (a : ℚ) + b / U - ((a : ℤ) : ℚ) = b / U := by push_cast; ring
  rw [hfr]
  have c1 : (b : ℚ) / U < 1 / 2 ↔ 2 * b < U := by
    rw [div_lt_div_iff₀ hUq (by norm_num)]
    constructor
    · intro h; have : ((2 * b : Nat) : ℚ) < U := by push_cast; linarith
      exact_mod_cast this
    · intro h; have : ((2 * b : Nat) : ℚ) < U := by exact_mod_cast h
      push_cast at this; linarith
  have c2 : 1 / 2 < (b : ℚ) / U ↔ U < 2 * b := by
    rw [div_lt_div_iff₀ (by norm_num) hUq]
    constructor
    · intro h; have : (U : ℚ) < ((2 * b : Nat) : ℚ) := by push_cast; linarith
      exact_mod_cast this
    · intro h; have : (U : ℚ) < ((2 * b : Nat) : ℚ) := by exact_mod_cast h
      push_cast at this; linarith
  have c3 : (a : ℤ) % 2 = 0 ↔ a % 2 = 0 := by omega
  simp only [c1, c2, c3]
  split_ifs <;> push_cast <;> rfl

/-- Rounding a whole number to 53 binary digits. -/
def natRound (s : Nat) : Nat :=
  let unit := 2 ^ (Nat.log2 s - 52)
  if 2 * (s % unit) < unit then s / unit * unit
  else if unit < 2 * (s % unit) then (s / unit + 1) * unit
  else if s / unit % 2 = 0 then s / unit * unit else (s / unit + 1) * unit

/-- The rounding of multiples of 2^-61 to `f64`. -/
theorem round_nat (s : Nat) (hs : 0 < s) : Float64.round (s / 2 ^ 61) = natRound s / 2 ^ 61 := by
  have hl1 : 2 ^ Nat.log2 s ≤ s := Nat.log2_self_le hs.ne'
  have hl2 : s < 2 ^ (Nat.log2 s + 1) := Nat.lt_log2_self
  rcases lt_or_ge (Nat.log2 s) 53 with hlt | hge
  · have hs53 : s < 2 ^ 53 := lt_of_lt_of_le hl2 (Nat.pow_le_pow_right (by norm_num) hlt)
    rw [Float64.round_of_rep (Float64.rep_div s 61 hs53 (by norm_num))]
    have : natRound s = s := by
      unfold natRound
      rcases Nat.lt_or_ge (Nat.log2 s) 53 with _ | _
      · have : Nat.log2 s - 52 = 0 := by omega
        simp [this, Nat.mod_one]
      · omega
    rw [this]
  · obtain ⟨k, hk⟩ : ∃ k, Nat.log2 s = k + 52 := ⟨Nat.log2 s - 52, by omega⟩
    rw [hk] at hl1 hl2
    have hq1 : (2 : ℚ) ^ ((k : ℤ) - 9) ≤ (s : ℚ) / 2 ^ 61 := by
      rw [le_div_iff₀ (by positivity)]
      have : ((2 ^ (k + 52) : Nat) : ℚ) ≤ s := by exact_mod_cast hl1
      have e : (2 : ℚ) ^ ((k : ℤ) - 9) * 2 ^ 61 = ((2 ^ (k + 52) : Nat) : ℚ) := by
        push_cast
        rw [← zpow_natCast, ← zpow_natCast, ← zpow_add₀ (by norm_num)]
        congr 1
        push_cast
        ring
      rw [e]
      exact this
    have hq2 : (s : ℚ) / 2 ^ 61 < 2 ^ ((k : ℤ) - 9 + 1) := by
      rw [div_lt_iff₀ (by positivity)]
      have : (s : ℚ) < ((2 ^ (k + 52 + 1) : Nat) : ℚ) := by exact_mod_cast hl2
      have e : (2 : ℚ) ^ ((k : ℤ) - 9 + 1) * 2 ^ 61 = ((2 ^ (k + 52 + 1) : Nat) : ℚ) := by
        push_cast
        rw [← zpow_natCast, ← zpow_natCast, ← zpow_add₀ (by norm_num)]
        congr 1
        push_cast
        ring
      rw [e]
      exact this
    rw [Float32.round64_eq (by omega) hq1 hq2]
    unfold Float32.grid natRound
    rw [hk, Nat.add_sub_cancel]
    obtain ⟨U, hU⟩ : ∃ U, U = 2 ^ k := ⟨_, rfl⟩
    have hU0 : 0 < U := by rw [hU]; positivity
    have hUq : (0 : ℚ) < U := by exact_mod_cast hU0
    have e1 : (2 : ℚ) ^ ((k : ℤ) - 9 - 52) = U / 2 ^ 61 := by
      rw [hU]
      push_cast
      rw [show (k : ℤ) - 9 - 52 = k - 61 by ring, zpow_sub₀ (by norm_num), zpow_natCast,
        show (61 : ℤ) = ((61 : ℕ) : ℤ) from rfl, zpow_natCast]
    have e2 : (s : ℚ) / 2 ^ 61 / (U / 2 ^ 61) = s / U := div_div_div_cancel_right₀ (by positivity) _ _
    rw [e1, e2, ← hU]
    dsimp only
    rw [roundHalfEven_nat s U hU0, Int.cast_natCast]
    generalize s / U = a
    generalize s % U = b
    split_ifs <;> push_cast <;> ring

/-- 1/375 in `f64`, in units of 2^-61. -/
def fadeStep : Nat := 6148914691236517

theorem fadeStep_eq : Float64.round (1 / 375) = fadeStep / 2 ^ 61 := by
  have : Float64.round (1 / 375) = Float32.grid (2 ^ ((-9 : ℤ) - 52)) (1 / 375) :=
    Float32.round64_eq (e := -9) (by norm_num) (by norm_num) (by norm_num)
  rw [this, Float32.grid_near (by positivity) (fadeStep : ℤ)]
  · unfold fadeStep; norm_num
  · unfold fadeStep; norm_num

/-- The values of the fade in units of 2^-61. -/
def fadeValue : Nat → Nat
  | 0 => 0
  | k + 1 => natRound (fadeValue k + fadeStep)

theorem fade_iterate : ∀ k : Nat,
    (fun x => Float64.round (Float64.round (x * 1) + fadeStep / 2 ^ 61))^[k] 0 = (fadeValue k : ℚ) / 2 ^ 61 := by
  intro k
  induction k with
  | zero => simp [fadeValue]
  | succ k ih =>
    have hrep : Float64.Rep ((fadeValue k : ℚ) / 2 ^ 61) := by
      rw [← ih]
      cases k with
      | zero => exact ⟨0, 0, by simp, by norm_num, by norm_num⟩
      | succ k =>
        rw [Function.iterate_succ_apply']
        exact Float64.rep_of_round _
    rw [Function.iterate_succ_apply', ih, mul_one, Float64.round_of_rep hrep, fadeValue,
      ← round_nat _ (by unfold fadeStep; omega), ← add_div]
    push_cast
    rfl

end RealtimeParameter
end Rawdio
