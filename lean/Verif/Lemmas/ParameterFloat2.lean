import Mathlib.Analysis.SpecialFunctions.Log.Basic
import Mathlib.Analysis.Complex.ExponentialBounds
import Verif.Lemmas.ParameterFloat
import Verif.Spec.ParameterFloat

/-! Helper lemmas about exponential ramps in the arithmetic of `f64`. -/

namespace Rawdio

/-- Near 1 the logarithm is small. -/
theorem abs_log_le {y : ℝ} (h : |y - 1| ≤ 1 / 2) : |Real.log y| ≤ 2 * |y - 1| := by
  obtain ⟨h1, h2⟩ := abs_le.mp h
  have hy : 0 < y := by linarith
  have a1 := Real.log_le_sub_one_of_pos hy
  have a2 := Real.log_le_sub_one_of_pos (inv_pos.mpr hy)
  rw [Real.log_inv] at a2
  have a3 : y⁻¹ - 1 ≤ 2 * |y - 1| := by
    have : y⁻¹ - 1 = (1 - y) * y⁻¹ := by field_simp
    rw [this]
    have h3 : y⁻¹ ≤ 2 := by
      rw [inv_le_comm₀ hy (by norm_num)]
      linarith
    have h4 : 1 - y ≤ |y - 1| := by
      rw [abs_sub_comm]
      exact le_abs_self _
    calc (1 - y) * y⁻¹ ≤ |y - 1| * y⁻¹ := mul_le_mul_of_nonneg_right h4 (inv_pos.mpr hy).le
      _ ≤ |y - 1| * 2 := mul_le_mul_of_nonneg_left h3 (abs_nonneg _)
      _ = _ := by ring
  have a4 : y - 1 ≤ 2 * |y - 1| := by
    have := le_abs_self (y - 1)
    have := abs_nonneg (y - 1)
    linarith
  rw [abs_le]
  constructor <;> linarith

/-- A small relative error is a small error of the logarithm. -/
theorem log_rel {x y k : ℝ} (hx : 0 < x) (hk : k ≤ 1 / 2) (h : |y - x| ≤ x * k) :
    0 < y ∧ |Real.log y - Real.log x| ≤ 2 * k := by
  have hxk : x * k ≤ x * (1 / 2) := mul_le_mul_of_nonneg_left hk hx.le
  have hy : 0 < y := by
    have := (abs_le.mp h).1
    linarith
  refine ⟨hy, ?_⟩
  rw [← Real.log_div hy.ne' hx.ne']
  have h1 : |y / x - 1| ≤ k := by
    have : y / x - 1 = (y - x) / x := by field_simp
    rw [this, abs_div, abs_of_pos hx, div_le_iff₀ hx]
    linarith
  have := abs_log_le (h1.trans hk)
  linarith

namespace Float64

theorem round_relR (x : ℚ) : |((round x : ℚ) : ℝ) - x| ≤ |(x : ℝ)| * (1 / 2 ^ 53) + 1 / 2 ^ 1075 := by
  have := round_rel x
  have h2 : ((|round x - x| : ℚ) : ℝ) ≤ ((|x| * (1 / 2 ^ 53) + 1 / 2 ^ 1075 : ℚ) : ℝ) := by exact_mod_cast this
  push_cast at h2
  exact h2

/-- The error of a rounding as an error of the logarithm. -/
theorem round_log {x : ℚ} (h : (1 : ℝ) / 2 ^ 900 ≤ x) :
    0 < ((round x : ℚ) : ℝ) ∧ |Real.log (round x : ℚ) - Real.log x| ≤ 4 * (1 / 2 ^ 53) := by
  have hx : (0 : ℝ) < x := lt_of_lt_of_le (by positivity) h
  have h1 := round_relR x
  rw [abs_of_pos hx] at h1
  have h2 : (1 : ℝ) / 2 ^ 1075 ≤ x * (1 / 2 ^ 53) := by
    have e : (1 : ℝ) / 2 ^ 1075 ≤ 1 / 2 ^ 900 * (1 / 2 ^ 53) := by
      rw [div_mul_div_comm, one_mul, ← pow_add]
      exact one_div_le_one_div_of_le (by positivity) (pow_le_pow_right₀ (by norm_num) (by norm_num))
    exact e.trans (mul_le_mul_of_nonneg_right h (by positivity))
  have h3 := log_rel (y := ((round x : ℚ) : ℝ)) (k := 2 * (1 / 2 ^ 53)) hx (by norm_num)
    (h1.trans (by rw [two_mul, mul_add]; exact add_le_add le_rfl h2))
  refine ⟨h3.1, h3.2.trans (le_of_eq (by ring))⟩

end Float64

namespace RealtimeParameter

variable {V : Type}

/-- An exponential ramp in progress, in any arithmetic. -/
theorem steps_exp_any (A : Arith V) (sr : Nat) (k : V) (ts : List Int) : ∀ (p : RealtimeParameter V),
    p.changes = [] → p.coefficient = k → p.increment = A.zero → ts.Pairwise (· ≤ ·) →
    ∀ (j : Nat) (t : Int), ts[j]? = some t → (steps A sr p ts).1[j]? =
      some (if t < p.current.endTime then (fun x => A.add (A.mul x k) A.zero)^[j + 1] p.value
        else p.current.value) := by
  induction ts with
  | nil => intro p _ _ _ _ j t h; simp at h
  | cons u ts ih =>
    intro p hc hco hin hp j t h
    obtain ⟨p1, p2⟩ := List.pairwise_cons.mp hp
    have hb : begin A p u sr p.value = p :=
      begin_none _ _ _ _ _ (by intro c rest h'; rw [hc] at h'; cases h')
    have hst : step A sr p u = { p with value := advance A p u p.value } := by
      unfold step valueAtTime
      simp only [hb]
    have hv : advance A p u p.value =
        if u < p.current.endTime then A.add (A.mul p.value k) A.zero else p.current.value := by
      unfold advance
      rw [hco, hin]
      by_cases hh : p.current.endTime ≤ u
      · rw [if_pos hh, if_neg (by omega)]
      · rw [if_neg hh, if_pos (by omega)]
    rw [steps]
    cases j with
    | zero =>
      simp at h
      subst h
      simp only [List.getElem?_cons_zero]
      rw [hst]
      simp only
      rw [hv]
      rfl
    | succ j =>
      simp only [List.getElem?_cons_succ] at h ⊢
      have := ih (step A sr p u) (by rw [hst]; exact hc) (by rw [hst]; exact hco)
        (by rw [hst]; exact hin) p2 j t h
      rw [this, hst]
      simp only
      congr 1
      by_cases ht : t < p.current.endTime
      · rw [if_pos ht, if_pos ht, hv, if_pos (by
          have := p1 t (List.mem_of_getElem? h); omega), Function.iterate_succ_apply _ (j + 1)]
      · rw [if_neg ht, if_neg ht]

/-- A parameter in which only an exponential ramp is pending, rendered from the first frame of the ramp on
(after some earlier frames `pre`). -/
structure ExpCase (sr : Nat) (p : RealtimeParameter V) (target : V) (startTime endTime : Int)
    (bs : List (Int × Nat)) (pre : List Int) (first : Int) (rest : List Int) : Prop where
  pending : p.changes = [⟨target, endTime, .exponential startTime⟩]
  times : frameTimes sr bs = pre ++ first :: rest
  ordered : (frameTimes sr bs).Pairwise (· ≤ ·)
  before : ∀ t ∈ pre, t < startTime ∧ p.current.endTime ≤ t ∧ p.value = p.current.value
  start : startTime ≤ first
  finish : first < endTime

/-- What happens in an exponential ramp, in any arithmetic. -/
theorem exp_values_any (A : Arith V) {sr : Nat} {p : RealtimeParameter V} {w : V} {s e : Int}
    {bs : List (Int × Nat)} {pre : List Int} {t0 : Int} {rest : List Int}
    (h : ExpCase sr p w s e bs pre t0 rest) (k : V) (hkdef : k = factor A w p.value e t0 sr)
    (hk : bs.length = 1 ∨ A.near k A.one = false) :
    (∀ j, j < pre.length → (processAll A sr p bs).1[j]? = some p.value) ∧
    ∀ (j : Nat) (t : Int), (t0 :: rest)[j]? = some t →
      (processAll A sr p bs).1[pre.length + j]? =
        some (if t < e then (fun x => A.add (A.mul x k) A.zero)^[j + 1] p.value else w) := by
  -- the state once the ramp has begun
  have hpre : ∀ t ∈ pre, step A sr p t = p := by
    intro t ht
    obtain ⟨b1, b2, b3⟩ := h.before t ht
    refine step_idle _ _ _ _ ?_ b2 b3
    intro c rest' hc
    rw [h.pending] at hc
    injection hc with h1 h2
    subst h1
    exact b1
  obtain ⟨q, hq⟩ : ∃ q : RealtimeParameter V, q = { p with
    changes := [], increment := A.zero, coefficient := k, current := ⟨w, e, .exponential s⟩ } := ⟨_, rfl⟩
  have hbegin : begin A p t0 sr p.value = q := by
    unfold begin
    rw [h.pending]
    simp only
    rw [if_pos h.start, ← hkdef, hq]
  have hqb : ∀ t, begin A q t sr q.value = q := by
    intro t
    refine begin_none _ _ _ _ _ ?_
    intro c rest' hc
    rw [hq] at hc
    cases hc
  have hfirst : step A sr p t0 = step A sr q t0 := by
    have hv : q.value = p.value := by rw [hq]
    have h2 : begin A q t0 sr p.value = q := by
      have := hqb t0
      rwa [hv] at this
    unfold step valueAtTime
    rw [hv]
    simp only [hbegin, h2]
  have hsteps : steps A sr p (frameTimes sr bs) =
      (List.replicate pre.length p.value ++ (steps A sr q (t0 :: rest)).1,
        (steps A sr q (t0 :: rest)).2) := by
    rw [h.times, steps_append, steps_fixed _ _ _ _ hpre]
    simp only [steps]
    rw [hfirst]
  have hstepq : ∀ x : RealtimeParameter V, x.changes = [] → x.coefficient = k → ∀ t,
      (step A sr x t).changes = [] ∧ (step A sr x t).coefficient = k := by
    intro x h1 h2 t
    have : begin A x t sr x.value = x :=
      begin_none _ _ _ _ _ (by intro c rest' hc; rw [h1] at hc; cases hc)
    unfold step valueAtTime
    simp only [this]
    exact ⟨h1, h2⟩
  have hall : processAll A sr p bs = steps A sr p (frameTimes sr bs) := by
    rcases hk with hone | hbig
    · match bs, hone with
      | [b], _ =>
        rw [show b = (b.1, b.2) from rfl, processAll_one, process_steps]
        · simp [frameTimes]
        · unfold isStatic; rw [h.pending]; simp
    · refine (processAll_steps A sr
        (fun x ts => (x = p ∧ ∃ pre', (∀ t ∈ pre', t ∈ pre) ∧ ts = pre' ++ t0 :: rest) ∨
          (x.changes = [] ∧ x.coefficient = k)) ?_ ?_ bs p (.inl ⟨rfl, pre, fun _ h => h, h.times⟩)).1
      · rintro x t ts (⟨rfl, pre', g1, g2⟩ | ⟨g1, g2⟩)
        · cases pre' with
          | nil =>
            injection g2 with g2 g3
            subst g2
            rw [hfirst]
            exact .inr (hstepq q (by rw [hq]) (by rw [hq]) t)
          | cons u pre' =>
            injection g2 with g2 g3
            subst g2
            rw [hpre t (g1 t List.mem_cons_self)]
            exact .inl ⟨rfl, pre', fun y hy => g1 y (List.mem_cons_of_mem _ hy), g3⟩
        · exact .inr (hstepq x g1 g2 t)
      · rintro x ts (⟨rfl, _⟩ | ⟨g1, g2⟩) hs
        · unfold isStatic at hs
          rw [h.pending] at hs
          simp at hs
        · unfold isStatic at hs
          rw [g2, hbig] at hs
          simp at hs
  rw [hall, hsteps]
  constructor
  · intro j hj
    simp only
    rw [List.getElem?_append_left (by simpa using hj), List.getElem?_replicate, if_pos hj]
  · intro j t ht
    simp only
    have ho : (t0 :: rest).Pairwise (· ≤ ·) := by
      have := h.ordered
      rw [h.times] at this
      exact (List.pairwise_append.mp this).2.1
    rw [List.getElem?_append_right (by simp), List.length_replicate, Nat.add_sub_cancel_left,
      steps_exp_any A sr k (t0 :: rest) q (by rw [hq]) (by rw [hq]) (by rw [hq]) ho j t ht]
    rw [hq]

/-- A quotient with errors. -/
theorem quotient_error (D c n d x y : ℝ) (hn : 1 ≤ n) (hd : n / 2 ≤ d) (hc : |c - D| ≤ x) (hdn : |d - n| ≤ y) :
    |c / d - D / n| ≤ (2 * x + 2 * |D| * (y / n)) / n ∧ |c / d| ≤ 2 * (|D| + x) / n := by
  have hn0 : 0 < n := by linarith
  have hd0 : 0 < d := by linarith
  have hx0 : 0 ≤ x := (abs_nonneg _).trans hc
  have hy0 : 0 ≤ y := (abs_nonneg _).trans hdn
  have hq : 1 / d ≤ 2 / n := by
    rw [div_le_div_iff₀ hd0 hn0]
    linarith
  have hq0 : 0 < 1 / d := by positivity
  constructor
  · have e : c / d - D / n = (c - D) * (1 / d) - D * ((d - n) / n * (1 / d)) := by field_simp; ring
    rw [e]
    refine (abs_sub _ _).trans ?_
    have p1 : |(c - D) * (1 / d)| ≤ x * (2 / n) := by
      rw [abs_mul, abs_of_pos hq0]
      exact mul_le_mul hc hq hq0.le hx0
    have p2 : |D * ((d - n) / n * (1 / d))| ≤ |D| * (y / n * (2 / n)) := by
      rw [abs_mul, abs_mul, abs_div, abs_of_pos hq0, abs_of_pos hn0]
      refine mul_le_mul_of_nonneg_left ?_ (abs_nonneg _)
      exact mul_le_mul (div_le_div_of_nonneg_right hdn hn0.le) hq hq0.le (by positivity)
    refine (add_le_add p1 p2).trans (le_of_eq ?_)
    field_simp
  · have e : c / d = (D + (c - D)) * (1 / d) := by field_simp; ring
    rw [e, abs_mul, abs_of_pos hq0]
    have : |D + (c - D)| ≤ |D| + x := (abs_add_le _ _).trans (by linarith)
    refine (mul_le_mul this hq hq0.le (by positivity)).trans (le_of_eq ?_)
    ring

/-- The computed length of a ramp. -/
theorem duration_float (E T : ℚ) (hT : 0 ≤ T) (hn : 1 ≤ E - T) (hE : E ≤ 2 ^ 46) :
    |Float64.round (Float64.round E - Float64.round T) - (E - T)| ≤ 5 * (E * (1 / 2 ^ 53)) ∧
      (E - T) / 2 ≤ Float64.round (Float64.round E - Float64.round T) := by
  have hE0 : 0 ≤ E := by linarith
  have a1 := Float64.round_rel E
  have a2 := Float64.round_rel T
  have a3 := Float64.round_rel (Float64.round E - Float64.round T)
  generalize Float64.round (Float64.round E - Float64.round T) = d at a3 ⊢
  generalize Float64.round E = rE at a1 a3
  generalize Float64.round T = rT at a2 a3
  have he : (0 : ℚ) ≤ 1 / 2 ^ 1075 ∧ (1 : ℚ) / 2 ^ 1075 ≤ 1 / 2 ^ 60 := by
    constructor
    · positivity
    · exact one_div_le_one_div_of_le (by positivity) (pow_le_pow_right₀ (by norm_num) (by norm_num))
  generalize (1 : ℚ) / 2 ^ 1075 = z at *
  obtain ⟨z0, z1⟩ := he
  obtain ⟨u, hu⟩ : ∃ u : ℚ, u = 1 / 2 ^ 53 := ⟨_, rfl⟩
  rw [← hu] at a1 a2 a3 ⊢
  have hu0 : 0 < u := by rw [hu]; positivity
  have hz : 3 * z ≤ u := by rw [hu]; refine (mul_le_mul_of_nonneg_left z1 (by norm_num)).trans ?_; norm_num
  have hEu : E * u ≤ 1 / 128 := by
    have := mul_le_mul_of_nonneg_right hE hu0.le
    rw [hu] at this ⊢
    refine this.trans ?_
    norm_num
  rw [abs_of_nonneg hE0] at a1
  rw [abs_of_nonneg hT] at a2
  have hTu : T * u ≤ E * u := mul_le_mul_of_nonneg_right (by linarith) hu0.le
  have hE1 : 1 ≤ E := by linarith
  have hEu' : u ≤ E * u := le_mul_of_one_le_left hu0.le hE1
  obtain ⟨a1l, a1r⟩ := abs_le.mp a1
  obtain ⟨a2l, a2r⟩ := abs_le.mp a2
  have b1 : |rE - rT| ≤ 2 * E := by
    rw [abs_le]
    constructor <;> linarith
  have b2 : |rE - rT| * u ≤ 2 * (E * u) := by
    have := mul_le_mul_of_nonneg_right b1 hu0.le
    linarith
  obtain ⟨a3l, a3r⟩ := abs_le.mp a3
  have hdn : |d - (E - T)| ≤ 5 * (E * u) := by
    rw [abs_le]
    constructor <;> linarith
  refine ⟨hdn, ?_⟩
  have := (abs_le.mp hdn).1
  linarith

/-- The logarithm of a number between 2^-100 and 2^100. -/
theorem log_bound {x : ℝ} (h1 : 1 / 2 ^ 100 ≤ x) (h2 : x ≤ 2 ^ 100) : |Real.log x| ≤ 70 := by
  have hx : 0 < x := lt_of_lt_of_le (by positivity) h1
  have l2 := Real.log_two_lt_d9
  have e1 : Real.log (1 / 2 ^ 100) = -(100 * Real.log 2) := by
    rw [one_div, Real.log_inv, Real.log_pow]
    norm_num
  have e2 : Real.log (2 ^ 100) = 100 * Real.log 2 := by
    rw [Real.log_pow]
    norm_num
  have a1 := Real.log_le_log (by positivity) h1
  have a2 := Real.log_le_log hx h2
  rw [e1] at a1
  rw [e2] at a2
  rw [abs_le]
  constructor <;> linarith

/-- How far the logarithm of the computed factor is from the exact one. -/
theorem factor_float (ln exp : ℚ → ℚ) (hacc : Accurate ln exp) (w v E T : ℚ) (hT : 0 ≤ T) (hn : 1 ≤ E - T)
    (hE : E ≤ 2 ^ 46) (hv1 : 1 / 2 ^ 100 ≤ v) (hv2 : v ≤ 2 ^ 100) (hw1 : 1 / 2 ^ 100 ≤ w) (hw2 : w ≤ 2 ^ 100) (k : ℚ)
    (hk : k = exp (Float64.round (ln (Float64.round (w / v)) / Float64.round (Float64.round E - Float64.round T)))) :
    0 < (k : ℝ) ∧ |Real.log k - Real.log (w / v) / ((E : ℝ) - T)| ≤ 16 * (1 / 2 ^ 53) +
      (29 * (1 / 2 ^ 53) * |Real.log (w / v)| * (E / ((E : ℝ) - T)) + 12 * (1 / 2 ^ 53)) / ((E : ℝ) - T) := by
  have hvR : (1 : ℝ) / 2 ^ 100 ≤ v := by
    have : (((1 / 2 ^ 100 : ℚ)) : ℝ) ≤ v := Rat.cast_le.mpr hv1
    push_cast at this
    exact this
  have hvR2 : (v : ℝ) ≤ 2 ^ 100 := by exact_mod_cast hv2
  have hwR : (1 : ℝ) / 2 ^ 100 ≤ w := by
    have : (((1 / 2 ^ 100 : ℚ)) : ℝ) ≤ w := Rat.cast_le.mpr hw1
    push_cast at this
    exact this
  have hwR2 : (w : ℝ) ≤ 2 ^ 100 := by exact_mod_cast hw2
  have hv0 : (0 : ℝ) < v := lt_of_lt_of_le (by positivity) hvR
  have hw0 : (0 : ℝ) < w := lt_of_lt_of_le (by positivity) hwR
  obtain ⟨hdn, hdh⟩ := duration_float E T hT hn hE
  -- the ratio
  have hq : (1 : ℝ) / 2 ^ 900 ≤ ((w / v : ℚ) : ℝ) := by
    push_cast
    rw [div_le_div_iff₀ (by positivity) hv0]
    have h1 : (2 : ℝ) ^ 100 ≤ 1 / 2 ^ 100 * 2 ^ 900 := by
      rw [div_mul_eq_mul_div, one_mul, le_div_iff₀ (by positivity), ← pow_add]
      exact pow_le_pow_right₀ (by norm_num) (by norm_num)
    have h2 : (1 : ℝ) / 2 ^ 100 * 2 ^ 900 ≤ w * 2 ^ 900 := mul_le_mul_of_nonneg_right hwR (by positivity)
    rw [one_mul]
    exact hvR2.trans (h1.trans h2)
  obtain ⟨r0, r1⟩ := Float64.round_log hq
  have hL : Real.log ((w / v : ℚ) : ℝ) = Real.log ((w : ℝ) / v) := by push_cast; rfl
  rw [hL] at r1
  have hLb : |Real.log ((w : ℝ) / v)| ≤ 140 := by
    rw [Real.log_div hw0.ne' hv0.ne']
    have := log_bound hvR hvR2
    have := log_bound hwR hwR2
    exact (abs_sub _ _).trans (by linarith)
  have c1 := hacc.ln (Float64.round (w / v)) (by exact_mod_cast r0)
  generalize Float64.round (w / v) = r at *
  generalize hcd : ln r = c at *
  have hyr := Float64.round_relR (c / Float64.round (Float64.round E - Float64.round T))
  have hyk := hacc.exp (Float64.round (c / Float64.round (Float64.round E - Float64.round T)))
  rw [← hk] at hyk
  generalize Float64.round (c / Float64.round (Float64.round E - Float64.round T)) = y at *
  generalize Float64.round (Float64.round E - Float64.round T) = d at *
  generalize Real.log ((w : ℝ) / v) = L at *
  have hdnR : |(d : ℝ) - ((E : ℝ) - T)| ≤ 5 * (E * (1 / 2 ^ 53)) := by
    have := Rat.cast_le (K := ℝ) |>.mpr hdn
    push_cast at this
    exact this
  have hdhR : ((E : ℝ) - T) / 2 ≤ d := by exact_mod_cast hdh
  have hnR : (1 : ℝ) ≤ (E : ℝ) - T := by exact_mod_cast hn
  have hER : (E : ℝ) ≤ 2 ^ 46 := by exact_mod_cast hE
  have hTR : (0 : ℝ) ≤ T := by exact_mod_cast hT
  have hnE : (E : ℝ) - T ≤ E := by linarith
  generalize (E : ℝ) - T = n at *
  generalize (E : ℝ) = F at *
  have hn0 : 0 < n := by linarith
  push_cast at hyr
  have hz : (0 : ℝ) < 1 / 2 ^ 1075 ∧ (1 : ℝ) / 2 ^ 1075 ≤ 1 / 2 ^ 53 * (1 / 2 ^ 53) := by
    constructor
    · positivity
    · rw [div_mul_div_comm, one_mul, ← pow_add]
      exact one_div_le_one_div_of_le (by positivity) (pow_le_pow_right₀ (by norm_num) (by norm_num))
  generalize (1 : ℝ) / 2 ^ 1075 = z at *
  have he50 : (1 : ℝ) / 2 ^ 50 = 8 * (1 / 2 ^ 53) := by norm_num
  rw [he50] at c1 hyk
  obtain ⟨u, hu⟩ : ∃ u : ℝ, u = 1 / 2 ^ 53 := ⟨_, rfl⟩
  rw [← hu] at r1 c1 hyr hyk hdnR hz ⊢
  have hu0 : 0 < u := by rw [hu]; positivity
  have hu1 : u ≤ 1 / 1000 := by rw [hu]; norm_num
  have hFu : F * u ≤ 1 / 128 := by
    have := mul_le_mul_of_nonneg_right hER hu0.le
    rw [hu] at this ⊢
    refine this.trans ?_
    norm_num
  have hF0 : 0 ≤ F := by linarith
  have hL0 := abs_nonneg L
  have huu : u * u ≤ 1 / 1000 * u := mul_le_mul_of_nonneg_right hu1 hu0.le
  have hLu : |L| * u * u ≤ 1 / 1000 * (|L| * u) := by
    have := mul_le_mul_of_nonneg_left huu hL0
    linarith
  have hlr : |Real.log r| ≤ |L| + 4 * u := by
    have := abs_sub_le (Real.log r) L 0
    rw [sub_zero, sub_zero] at this
    linarith
  have hcL : |c - L| ≤ 8 * (|L| * u) + 5 * u := by
    have h1 := abs_sub_le (c : ℝ) (Real.log r) L
    have h2 := mul_le_mul_of_nonneg_right hlr (by positivity : 0 ≤ 8 * u)
    linarith
  obtain ⟨q1, q2⟩ := quotient_error L c n d _ _ hnR hdhR hcL hdnR
  have hFn : 1 ≤ F / n := by rw [one_le_div hn0]; exact hnE
  have hzn : z ≤ u / n := by
    rw [le_div_iff₀ hn0]
    have h1 : z * n ≤ u * u * n := mul_le_mul_of_nonneg_right hz.2 hn0.le
    have h2 : u * n ≤ 1 := by
      have := mul_le_mul_of_nonneg_left hnE hu0.le
      linarith
    have h3 := mul_le_mul_of_nonneg_left h2 hu0.le
    linarith
  have hyL : |y - L / n| ≤ (29 * u * |L| * (F / n) + 12 * u) / n := by
    have h1 := abs_sub_le (y : ℝ) (c / d) (L / n)
    have h2 := mul_le_mul_of_nonneg_right q2 hu0.le
    have h3 : (2 * (8 * (|L| * u) + 5 * u) + 2 * |L| * (5 * (F * u) / n)) / n +
        2 * (|L| + (8 * (|L| * u) + 5 * u)) / n * u + u / n ≤ (29 * u * |L| * (F / n) + 12 * u) / n := by
      rw [div_mul_eq_mul_div, ← add_div, ← add_div]
      refine div_le_div_of_nonneg_right ?_ hn0.le
      have h4 : |L| * u ≤ |L| * u * (F / n) := le_mul_of_one_le_right (by positivity) hFn
      have h5 : 2 * |L| * (5 * (F * u) / n) = 10 * (|L| * u * (F / n)) := by ring
      have h6 : 29 * u * |L| * (F / n) = 29 * (|L| * u * (F / n)) := by ring
      rw [h5, h6]
      have h7 : 0 ≤ |L| * u * (F / n) := by positivity
      linarith
    linarith
  have hy700 : |y| ≤ 700 := by
    have h1 : |(y : ℝ)| ≤ 700 := by
      have h2 := abs_sub_le (y : ℝ) (L / n) 0
      rw [sub_zero, sub_zero] at h2
      have h3 : |L / n| ≤ 140 := by
        rw [abs_div, abs_of_pos hn0]
        exact (div_le_self hL0 hnR).trans hLb
      have h4 : (29 * u * |L| * (F / n) + 12 * u) / n ≤ 100 := by
        have h5 : F / n ≤ F := div_le_self hF0 hnR
        have h6 : 29 * u * |L| * (F / n) ≤ 29 * u * |L| * F := mul_le_mul_of_nonneg_left h5 (by positivity)
        have h7 : 29 * u * |L| * F ≤ 29 * 140 * (1 / 128) := by
          have : |L| * (F * u) ≤ 140 * (1 / 128) := mul_le_mul hLb hFu (by positivity) (by norm_num)
          linarith
        refine (div_le_self (by positivity) hnR).trans ?_
        linarith
      linarith
    exact_mod_cast h1
  obtain ⟨k0, k1⟩ := log_rel (Real.exp_pos (y : ℝ)) (by linarith : 8 * u ≤ 1 / 2) (hyk hy700)
  rw [Real.log_exp] at k1
  refine ⟨k0, ?_⟩
  have := abs_sub_le (Real.log k) y (L / n)
  linarith

/-- Repeated multiplication with rounding. -/
theorem drift_exp (v k : ℚ) (a : ℝ) (hv : Float64.Rep v) (hv0 : (0 : ℝ) < v) (hk : (0 : ℝ) < k) (K : Nat)
    (hB : ∀ i : Nat, i ≤ K → |Real.log v + i * a| ≤ 500)
    (hK : K * (|Real.log k - a| + 4 * (1 / 2 ^ 53)) ≤ 100) :
    ∀ i : Nat, i ≤ K → Float64.Rep ((fun x => Float64.round (Float64.round (x * k) + 0))^[i] v) ∧
      (0 : ℝ) < ((fun x => Float64.round (Float64.round (x * k) + 0))^[i] v : ℚ) ∧
      |Real.log ((fun x => Float64.round (Float64.round (x * k) + 0))^[i] v : ℚ) - (Real.log v + i * a)| ≤
        i * (|Real.log k - a| + 4 * (1 / 2 ^ 53)) := by
  intro i
  induction i with
  | zero => intro _; refine ⟨hv, hv0, ?_⟩; simp
  | succ i ih =>
    intro hi
    obtain ⟨i1, i2, i3⟩ := ih (by omega)
    rw [Function.iterate_succ_apply']
    generalize (fun x => Float64.round (Float64.round (x * k) + 0))^[i] v = x at i1 i2 i3 ⊢
    rw [add_zero, Float64.round_of_rep (Float64.rep_of_round _)]
    refine ⟨Float64.rep_of_round _, ?_⟩
    have b := hB (i + 1) hi
    push_cast at b ⊢
    have hD0 : 0 ≤ |Real.log k - a| + 4 * (1 / 2 ^ 53) := by positivity
    have hKD : ((i : ℝ) + 1) * (|Real.log k - a| + 4 * (1 / 2 ^ 53)) ≤ 100 := by
      refine le_trans (mul_le_mul_of_nonneg_right ?_ hD0) hK
      exact_mod_cast hi
    have hxk : Real.log ((x * k : ℚ) : ℝ) = Real.log x + Real.log k := by
      push_cast
      exact Real.log_mul i2.ne' hk.ne'
    have hpos : (0 : ℝ) < ((x * k : ℚ) : ℝ) := by push_cast; exact mul_pos i2 hk
    have c1 : |Real.log ((x * k : ℚ) : ℝ) - (Real.log v + (i + 1) * a)| ≤
        i * (|Real.log k - a| + 4 * (1 / 2 ^ 53)) + |Real.log k - a| := by
      have : Real.log ((x * k : ℚ) : ℝ) - (Real.log v + (i + 1) * a) =
          (Real.log x - (Real.log v + i * a)) + (Real.log k - a) := by rw [hxk]; ring
      rw [this]
      exact (abs_add_le _ _).trans (by linarith)
    have hu0 : (0 : ℝ) ≤ 4 * (1 / 2 ^ 53) := by positivity
    have hlow : (1 : ℝ) / 2 ^ 900 ≤ ((x * k : ℚ) : ℝ) := by
      rw [← Real.log_le_log_iff (by positivity) hpos, one_div, Real.log_inv, Real.log_pow]
      have l2 := Real.log_two_gt_d9
      have := (abs_le.mp c1).1
      have := (abs_le.mp b).1
      rw [show ((900 : ℕ) : ℝ) = 900 by norm_num]
      linarith
    obtain ⟨r0, r1⟩ := Float64.round_log hlow
    refine ⟨r0, ?_⟩
    have := abs_sub_le (Real.log (Float64.round (x * k) : ℚ)) (Real.log ((x * k : ℚ) : ℝ)) (Real.log v + (i + 1) * a)
    linarith

/-- A number whose logarithm is not small is not near 1. -/
theorem far_from_one {k : ℝ} (hk : 0 < k) (h : 1 / 2 ^ 46 ≤ |Real.log k|) : max k 1 * (1 / 2 ^ 47) ≤ |k - 1| := by
  rcases le_total 1 k with h1 | h1
  · rw [max_eq_left h1, abs_of_nonneg (by linarith)]
    rw [abs_of_nonneg (Real.log_nonneg h1)] at h
    have := Real.log_le_sub_one_of_pos hk
    rcases le_total k 2 with h2 | h2
    · have : (1 : ℝ) / 2 ^ 46 = 2 * (1 / 2 ^ 47) := by norm_num
      have : k * (1 / 2 ^ 47) ≤ 2 * (1 / 2 ^ 47) := mul_le_mul_of_nonneg_right h2 (by positivity)
      linarith
    · have : k * (1 / 2 ^ 47) ≤ k * (1 / 2) := mul_le_mul_of_nonneg_left (by norm_num) hk.le
      linarith
  · rw [max_eq_right h1, abs_of_nonpos (by linarith), one_mul]
    rw [abs_of_nonpos (Real.log_nonpos hk.le h1)] at h
    have h3 := Real.log_le_sub_one_of_pos (inv_pos.mpr hk)
    rw [Real.log_inv] at h3
    rcases le_total (1 / 2) k with h2 | h2
    · have h4 : k⁻¹ - 1 = (1 - k) * k⁻¹ := by field_simp
      have h5 : k⁻¹ ≤ 2 := by
        rw [inv_le_comm₀ hk (by norm_num)]
        linarith
      have h6 : (1 - k) * k⁻¹ ≤ (1 - k) * 2 := mul_le_mul_of_nonneg_left h5 (by linarith)
      have : (1 : ℝ) / 2 ^ 46 = 2 * (1 / 2 ^ 47) := by norm_num
      linarith
    · have : (1 : ℝ) / 2 ^ 47 ≤ 1 / 2 := by norm_num
      linarith

/-- The test of `is_static` sees that a factor is not 1. -/
theorem not_near_one (ln exp : ℚ → ℚ) (k : ℚ) (hk : (0 : ℝ) < k) (h : 1 / 2 ^ 46 ≤ |Real.log k|) :
    (floatArith ln exp).near k (floatArith ln exp).one = false := by
  have h1 := far_from_one hk h
  have hk0 : 0 < k := by exact_mod_cast hk
  have h2 : max k 1 * (1 / 2 ^ 47) ≤ |k - 1| := by
    have : (((max k 1 * (1 / 2 ^ 47) : ℚ)) : ℝ) ≤ ((|k - 1| : ℚ) : ℝ) := by push_cast; exact h1
    exact Rat.cast_le.mp this
  have h3 := Float64.round_rel (k - 1)
  have h4 : (1 : ℚ) / 2 ^ 1075 ≤ 1 / 2 ^ 60 :=
    one_div_le_one_div_of_le (by positivity) (pow_le_pow_right₀ (by norm_num) (by norm_num))
  have h5 : |k - 1| ≤ |Float64.round (k - 1)| + |Float64.round (k - 1) - (k - 1)| := by
    have := abs_sub_le (k - 1) (Float64.round (k - 1)) 0
    rw [sub_zero, sub_zero, abs_sub_comm (k - 1)] at this
    linarith
  change decide (k = 1 ∨ |Float64.round (k - 1)| ≤ 1 / 2 ^ 52 ∨
      |Float64.round (k - 1)| ≤ max |k| |1| * (1 / 2 ^ 52)) = false
  rw [abs_one, abs_of_pos hk0]
  have hm : (1 : ℚ) ≤ max k 1 := le_max_right _ _
  have hm0 : 0 < max k 1 := by linarith
  generalize max k 1 = m at *
  generalize (1 : ℚ) / 2 ^ 1075 = z at *
  have h6 : |k - 1| * (1 / 2 ^ 53) ≤ |k - 1| * (1 / 2) :=
    mul_le_mul_of_nonneg_left (by norm_num) (abs_nonneg _)
  have h7 : (1 : ℚ) / 2 ^ 47 = 32 * (1 / 2 ^ 52) := by norm_num
  have h8 : (1 : ℚ) / 2 ^ 60 ≤ 1 / 2 ^ 52 := by norm_num
  have h9 : (0 : ℚ) < 1 / 2 ^ 52 := by positivity
  have h10 : 1 / 2 ^ 52 ≤ m * (1 / 2 ^ 52) := le_mul_of_one_le_left h9.le hm
  rw [h7] at h2
  generalize (1 : ℚ) / 2 ^ 52 = b at *
  have hfar : m * b < |Float64.round (k - 1)| := by linarith
  refine decide_eq_false ?_
  rintro (h | h | h)
  · rw [h, sub_self, abs_zero] at h2
    linarith
  · linarith
  · linarith

/-- There are accurate functions. -/
theorem accurate_exists : ∃ ln exp : ℚ → ℚ, Accurate ln exp := by
  have h1 : ∀ x : ℚ, ∃ q : ℚ, |(q : ℝ) - Real.log x| ≤ |Real.log x| * (1 / 2 ^ 50) := by
    intro x
    rcases eq_or_ne (Real.log x) 0 with h | h
    · exact ⟨0, by rw [h]; simp⟩
    · obtain ⟨q, hq⟩ := exists_rat_near (Real.log x) (ε := |Real.log x| * (1 / 2 ^ 50))
        (mul_pos (abs_pos.mpr h) (by positivity))
      exact ⟨q, by rw [abs_sub_comm]; exact hq.le⟩
  have h2 : ∀ x : ℚ, ∃ q : ℚ, |(q : ℝ) - Real.exp x| ≤ Real.exp x * (1 / 2 ^ 50) := by
    intro x
    obtain ⟨q, hq⟩ := exists_rat_near (Real.exp x) (ε := Real.exp x * (1 / 2 ^ 50))
      (mul_pos (Real.exp_pos _) (by positivity))
    exact ⟨q, by rw [abs_sub_comm]; exact hq.le⟩
  choose ln hln using h1
  choose exp hexp using h2
  exact ⟨ln, exp, fun x _ => hln x, fun x _ => hexp x⟩

end RealtimeParameter
end Rawdio
