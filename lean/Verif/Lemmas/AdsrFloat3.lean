import Verif.Lemmas.AdsrFloat2

/-! Helper lemmas about ADSR envelopes in the arithmetic of `f64`: the range of the values, and the stages. -/

namespace Rawdio

namespace Float64

open Float32 (grid round64_zero)

/-- Rounding keeps the order. -/
theorem round_mono {x y : ℚ} (h0 : 0 ≤ x) (h : x ≤ y) : round x ≤ round y := by
  rcases h0.eq_or_lt with rfl | h0
  · rw [round64_zero]
    exact round_nonneg h
  have hy : 0 < y := lt_of_lt_of_le h0 h
  have hmono : unitLog x ≤ unitLog y := by
    unfold unitLog
    have : Int.log 2 |x| ≤ Int.log 2 |y| := by
      rw [abs_of_pos h0, abs_of_pos hy]
      exact Int.log_mono_right h0 h
    omega
  rcases hmono.eq_or_lt with he | he
  · rw [round_grid, round_grid, ulp_eq, ulp_eq, he]
    unfold grid
    have hu : (0 : ℚ) < 2 ^ unitLog y := zpow_pos (by norm_num) _
    exact mul_le_mul_of_nonneg_right (by
      exact_mod_cast Timestamp.roundHalfEven_mono (div_le_div_of_nonneg_right h hu.le)) hu.le
  · have hk : -1074 ≤ unitLog x := le_max_right _ _
    have h1 : (2 : ℚ) ^ (unitLog y + 52) ≤ y := by
      have := le_of_lt_unitLog hy.ne' hk he
      rwa [abs_of_pos hy] at this
    have h2 : x < 2 ^ (unitLog y + 52) := by
      have a1 := Int.lt_zpow_succ_log_self (b := 2) (by norm_num) |x|
      rw [abs_of_pos h0] at a1
      have a2 : (2 : ℚ) ^ (Int.log 2 x + 1) ≤ 2 ^ (unitLog y + 52) := zpow_le_zpow_right₀ (by norm_num) (by
        have : Int.log 2 |x| - 52 ≤ unitLog x := le_max_left _ _
        rw [abs_of_pos h0] at this
        omega)
      exact lt_of_lt_of_le (by exact_mod_cast a1) a2
    exact (round_le h0.le (rep_zpow _ (by omega)) h2.le).trans
      (le_round (zpow_pos (by norm_num) _).le (rep_zpow _ (by omega)) h1)

end Float64

namespace Adsr64

open Float32 (grid_near round64_eq round64_neg round64_zero)

/-- A tenth as a 64 bit float. -/
def tenth : ℚ := 7205759403792794 / 2 ^ 56

/-- 1.1 as a 64 bit float. -/
def top : ℚ := 4953959590107546 / 2 ^ 52

theorem round_tenth : Float64.round (1 / 10) = tenth := by
  rw [round64_eq (e := -4) (by norm_num) (by norm_num) (by norm_num),
    grid_near (by norm_num) 7205759403792794 (by rw [abs_lt]; constructor <;> norm_num)]
  norm_num [tenth]

theorem attackTarget_eq : attackTarget = top := by
  unfold attackTarget
  rw [round64_eq (e := 0) (by norm_num) (by norm_num) (by norm_num),
    grid_near (by norm_num) 4953959590107546 (by rw [abs_lt]; constructor <;> norm_num)]
  norm_num [top]

theorem releaseTarget_eq : releaseTarget = -tenth := by
  unfold releaseTarget
  rw [show (-1 : ℚ) / 10 = -(1 / 10) by norm_num, round64_neg, round_tenth]

theorem decayTarget_eq : decayTarget = -tenth := releaseTarget_eq

theorem round_top : Float64.round (1 + tenth) = top := by
  rw [round64_eq (e := 0) (by norm_num) (by norm_num [tenth]) (by norm_num [tenth]),
    grid_near (by norm_num) 4953959590107546 (by rw [abs_lt]; constructor <;> norm_num [tenth])]
  norm_num [top]

theorem rep_tenth : Float64.Rep tenth := by
  have := Float64.rep_div 7205759403792794 56 (by norm_num) (by norm_num)
  unfold tenth
  exact_mod_cast this

theorem rep_top : Float64.Rep top := by
  have := Float64.rep_div 4953959590107546 52 (by norm_num) (by norm_num)
  unfold top
  exact_mod_cast this

theorem rep_one : Float64.Rep 1 := by
  have := Float64.rep_int 1 (by norm_num)
  exact_mod_cast this

theorem round_above : Float64.round (1 + 3 / 2 ^ 55) = 1 := by
  rw [round64_eq (e := 0) (by norm_num) (by norm_num) (by norm_num),
    grid_near (by norm_num) (2 ^ 52) (by rw [abs_lt]; constructor <;> norm_num)]
  norm_num

theorem attack_nonneg {v c : ℚ} (h0 : 0 ≤ v) (h1 : v ≤ 1) (hc0 : 0 ≤ c) (hc1 : c ≤ 1) :
    0 ≤ processExponential v attackTarget c := by
  unfold processExponential
  rw [attackTarget_eq, show v - top = -(top - v) by ring, round64_neg, mul_neg, round64_neg]
  have ht : (1 : ℚ) ≤ top := by norm_num [top]
  have hd0 := Float64.round_nonneg (x := top - v) (by linarith)
  have hd1 := Float64.round_le (x := top - v) (by linarith) rep_top (by linarith)
  generalize Float64.round (top - v) = d at *
  have hp1 := Float64.round_le (x := c * d) (by positivity) rep_top ((mul_le_of_le_one_left hd0 hc1).trans hd1)
  exact Float64.round_nonneg (by linarith)

theorem decay_le {v c : ℚ} (h0 : 0 ≤ v) (h1 : v ≤ 1) (hc0 : 0 ≤ c) (hc1 : c ≤ 1) :
    processExponential v (-tenth) c ≤ 1 := by
  unfold processExponential
  rw [sub_neg_eq_add]
  have ht : (0 : ℚ) < tenth := by norm_num [tenth]
  have htt : 1 + tenth ≤ top := by norm_num [top, tenth]
  have hd0 := Float64.round_nonneg (x := v + tenth) (by linarith)
  have hd1 := Float64.round_le (x := v + tenth) (by linarith) rep_top (by linarith)
  generalize Float64.round (v + tenth) = d at *
  have hp1 := Float64.round_le (x := c * d) (by positivity) rep_top ((mul_le_of_le_one_left hd0 hc1).trans hd1)
  generalize Float64.round (c * d) = p at *
  have e : top = 1 + 3 / 2 ^ 55 + tenth := by norm_num [top, tenth]
  rcases le_total 0 (-tenth + p) with h | h
  · have := Float64.round_mono h (show -tenth + p ≤ 1 + 3 / 2 ^ 55 by linarith)
    rwa [round_above] at this
  · have := Float64.round_nonneg (x := -(-tenth + p)) (by linarith)
    rw [round64_neg] at this
    linarith

theorem coefficient_range {ln exp : ℚ → ℚ} (h : Contracting ln exp) {q : ℚ} (h0 : 0 < q) (h1 : q ≤ 1) (t sr : Nat) :
    0 ≤ coefficient ln exp q t sr ∧ coefficient ln exp q t sr ≤ 1 := by
  unfold coefficient
  split
  · exact ⟨le_rfl, zero_le_one⟩
  · apply h.exp
    have hl := h.ln q h0 h1
    have hs : 0 ≤ Follower32.secs t := by
      unfold Follower32.secs
      exact Float64.round_nonneg (add_nonneg (by positivity) (Float64.round_nonneg (by positivity)))
    have hm := Float64.round_nonneg (x := Follower32.secs t * sr) (by positivity)
    have hx : 0 ≤ -(ln q / Float64.round (Follower32.secs t * sr)) := by
      rw [← neg_div]
      exact div_nonneg (by linarith) hm
    have := Float64.round_nonneg hx
    rw [round64_neg] at this
    linarith

theorem sustain_range {s : ℚ} (h0 : 0 ≤ s) (h1 : s ≤ 1) :
    tenth ≤ Float64.round (s + tenth) ∧ Float64.round (s + tenth) ≤ top := by
  have ht : (0 : ℚ) < tenth := by norm_num [tenth]
  have htt : 1 + tenth ≤ top := by norm_num [top, tenth]
  exact ⟨Float64.le_round ht.le rep_tenth (by linarith), Float64.round_le (by linarith) rep_top (by linarith)⟩

theorem rep_sixteenth : Float64.Rep (1 / 16) := by
  have := Float64.rep_div 1 4 (by norm_num) (by norm_num)
  norm_num at this ⊢
  exact this

theorem quotient_range {a b : ℚ} (ha : tenth ≤ a) (hab : a ≤ b) (hb : b ≤ top) :
    0 < Float64.round (a / b) ∧ Float64.round (a / b) ≤ 1 := by
  have ht : (1 / 11 : ℚ) < tenth := by norm_num [tenth]
  have htt : top ≤ 6 / 5 := by norm_num [top]
  have hb0 : 0 < b := by linarith
  have ha0 : 0 < a := by linarith
  constructor
  · refine lt_of_lt_of_le (by norm_num) (Float64.le_round (y := 1 / 16) (by norm_num) rep_sixteenth ?_)
    rw [le_div_iff₀ hb0]
    linarith
  · exact Float64.round_le (by positivity) rep_one ((div_le_one hb0).mpr hab)

theorem attackCoefficient_range {ln exp : ℚ → ℚ} (h : Contracting ln exp) (t sr : Nat) :
    0 ≤ attackCoefficientFor ln exp t sr ∧ attackCoefficientFor ln exp t sr ≤ 1 := by
  have e : Float64.round (attackTarget - 1) = top - 1 := by
    rw [attackTarget_eq]
    apply Float64.round_of_rep
    have := Float64.rep_div (4953959590107546 - 2 ^ 52) 52 (by norm_num) (by norm_num)
    have e : top - 1 = ((4953959590107546 - 2 ^ 52 : ℕ) : ℚ) / 2 ^ 52 := by norm_num [top]
    rw [e]
    exact this
  have hq := quotient_range (a := top - 1) (b := top) (by norm_num [tenth, top]) (by linarith) le_rfl
  unfold attackCoefficientFor
  rw [e, attackTarget_eq]
  exact coefficient_range h hq.1 hq.2 _ _

theorem decayCoefficient_range {ln exp : ℚ → ℚ} (h : Contracting ln exp) (t sr : Nat) {s : ℚ} (h0 : 0 ≤ s) (h1 : s ≤ 1) :
    0 ≤ decayCoefficientFor ln exp t s sr ∧ decayCoefficientFor ln exp t s sr ≤ 1 := by
  have hs := sustain_range h0 h1
  have hq := quotient_range hs.1 hs.2 le_rfl
  unfold decayCoefficientFor
  rw [decayTarget_eq, sub_neg_eq_add, sub_neg_eq_add, round_top]
  exact coefficient_range h hq.1 hq.2 _ _

theorem releaseCoefficient_range {ln exp : ℚ → ℚ} (h : Contracting ln exp) (t sr : Nat) {s : ℚ} (h0 : 0 ≤ s) (h1 : s ≤ 1) :
    0 ≤ releaseCoefficientFor ln exp t s sr ∧ releaseCoefficientFor ln exp t s sr ≤ 1 := by
  have hs := sustain_range h0 h1
  have hq := quotient_range le_rfl hs.1 hs.2
  unfold releaseCoefficientFor
  rw [releaseTarget_eq, sub_neg_eq_add, neg_neg]
  exact coefficient_range h hq.1 hq.2 _ _

/-- What holds of an envelope at all times. -/
structure Sound (e : Adsr64) : Prop where
  value : 0 ≤ e.envelope ∧ e.envelope ≤ 1
  sustain : 0 ≤ e.sustainLevel ∧ e.sustainLevel ≤ 1
  attack : 0 ≤ e.attackCoefficient ∧ e.attackCoefficient ≤ 1
  decay : 0 ≤ e.decayCoefficient ∧ e.decayCoefficient ≤ 1
  release : 0 ≤ e.releaseCoefficient ∧ e.releaseCoefficient ≤ 1

theorem process_sound {e : Adsr64} (h : Sound e) : Sound e.process := by
  obtain ⟨⟨v0, v1⟩, hs, ha, hd, hr⟩ := h
  unfold process
  cases hp : e.phase with
  | idle => exact ⟨⟨le_rfl, zero_le_one⟩, hs, ha, hd, hr⟩
  | attack => exact ⟨⟨le_min (attack_nonneg v0 v1 ha.1 ha.2) zero_le_one, min_le_right _ _⟩, hs, ha, hd, hr⟩
  | decay =>
    refine ⟨⟨le_max_of_le_right hs.1, max_le ?_ hs.2⟩, hs, ha, hd, hr⟩
    rw [decayTarget_eq]
    exact decay_le v0 v1 hd.1 hd.2
  | sustain => exact ⟨hs, hs, ha, hd, hr⟩
  | release =>
    refine ⟨⟨le_max_right _ _, max_le ?_ zero_le_one⟩, hs, ha, hd, hr⟩
    rw [releaseTarget_eq]
    exact decay_le v0 v1 hr.1 hr.2

theorem act_sound {ln exp : ℚ → ℚ} (hc : Contracting ln exp) {e : Adsr64} (h : Sound e) (a : Adsr64Action)
    (ha : ∀ l, a = .setSustain l → 0 ≤ l ∧ l ≤ 1) : Sound (act ln exp e a) := by
  cases a with
  | noteOn => exact ⟨h.value, h.sustain, h.attack, h.decay, h.release⟩
  | noteOff => exact ⟨h.value, h.sustain, h.attack, h.decay, h.release⟩
  | setAttack t => exact ⟨h.value, h.sustain, attackCoefficient_range hc _ _, h.decay, h.release⟩
  | setDecay t => exact ⟨h.value, h.sustain, h.attack, decayCoefficient_range hc _ _ h.sustain.1 h.sustain.2, h.release⟩
  | setSustain l =>
    have hl := ha l rfl
    exact ⟨h.value, hl, h.attack, decayCoefficient_range hc _ _ hl.1 hl.2, releaseCoefficient_range hc _ _ hl.1 hl.2⟩
  | setRelease t => exact ⟨h.value, h.sustain, h.attack, h.decay, releaseCoefficient_range hc _ _ h.sustain.1 h.sustain.2⟩
  | frame => exact process_sound h

theorem new_sound {ln exp : ℚ → ℚ} (hc : Contracting ln exp) (sr a d r : Nat) {s : ℚ} (h0 : 0 ≤ s) (h1 : s ≤ 1) :
    Sound (new ln exp sr a d s r) :=
  ⟨⟨le_rfl, zero_le_one⟩, ⟨h0, h1⟩, attackCoefficient_range hc _ _, decayCoefficient_range hc _ _ h0 h1,
    releaseCoefficient_range hc _ _ h0 h1⟩

theorem fold_sound {ln exp : ℚ → ℚ} (hc : Contracting ln exp) : ∀ (as : List Adsr64Action) {e : Adsr64}, Sound e →
    (∀ l, .setSustain l ∈ as → 0 ≤ l ∧ l ≤ 1) → Sound (as.foldl (act ln exp) e)
  | [], _, h, _ => h
  | a :: as, _, h, hl => fold_sound hc as
      (act_sound hc h a fun l e => hl l (by rw [e]; exact List.mem_cons_self)) fun l m => hl l (List.mem_cons_of_mem _ m)

/-- How long a stage takes. -/
theorem stage {ln exp : ℚ → ℚ} (hacc : Accurate ln exp) {sr t : Nat} (hsr : 0 < sr) {q T w v g : ℚ} (hg : |g| = 1)
    (hq : 0 < q) (hT : |T| ≤ 5 / 4) (hD0 : 0 < g * (v - T)) (hlt : g * (v - T) < g * (w - T)) (hZ : g * (w - T) ≤ 5 / 4)
    (h12 : g * (w - T) ≤ 12 * (g * (v - T)))
    (hDL : 1 / 128 ≤ g * (v - T) * (1 - (g * (v - T)) / (g * (w - T))))
    (hqL : |Real.log q - Real.log ((g * (v - T) : ℚ) / (g * (w - T) : ℚ))| ≤ 1 / 2 ^ 49)
    (hn1 : 1 ≤ timeSamples sr t) (hn2 : timeSamples sr t ≤ 2 ^ 19) :
    ∃ K : Nat, timeSamples sr t - 1 < K ∧ (K : ℚ) < timeSamples sr t + 2 ∧
      (∀ k < K, g * (v - T) < g * (curve T (coefficient ln exp q t sr) w k - T)) ∧
      g * (curve T (coefficient ln exp q t sr) w K - T) ≤ g * (v - T) := by
  have ht : 0 < t := by
    by_contra hh
    have : t = 0 := by omega
    rw [this] at hn1
    norm_num [timeSamples] at hn1
  have hZw : |w - T| = g * (w - T) := by
    have h1 : |g * (w - T)| = |w - T| := by rw [abs_mul, hg, one_mul]
    rw [← h1, abs_of_pos (by linarith)]
  obtain ⟨D, hD⟩ : ∃ D, D = g * (v - T) := ⟨_, rfl⟩
  obtain ⟨Z0, hZ0⟩ : ∃ Z0, Z0 = g * (w - T) := ⟨_, rfl⟩
  rw [← hD] at hD0 hlt h12 hDL hqL ⊢
  rw [← hZ0] at hlt hZ h12 hDL hqL hZw
  have dR : (0 : ℝ) < D := by exact_mod_cast hD0
  have zR : (D : ℝ) < Z0 := by exact_mod_cast hlt
  have z12R : (Z0 : ℝ) ≤ 12 * D := by exact_mod_cast h12
  have zuR : (Z0 : ℝ) ≤ 5 / 4 := by
    have := Rat.cast_le (K := ℝ) |>.mpr hZ
    push_cast at this
    exact this
  have z0R : (0 : ℝ) < Z0 := by linarith
  obtain ⟨L, hL⟩ : ∃ L, L = Real.log ((Z0 : ℝ) / D) := ⟨_, rfl⟩
  have hLneg : Real.log ((D : ℝ) / Z0) = -L := by rw [hL, ← Real.log_inv, inv_div]
  rw [hLneg, sub_neg_eq_add] at hqL
  have hL0 : 0 < L := by rw [hL]; exact Real.log_pos ((one_lt_div dR).mpr zR)
  have hL1 : L ≤ 5 / 2 := by
    rw [hL, Real.log_le_iff_le_exp (by positivity)]
    refine le_trans ((div_le_iff₀ dR).mpr z12R) ?_
    have h1 : Real.exp (5 / 2) ^ 2 = Real.exp 1 ^ 5 := by
      rw [← Real.exp_nat_mul, ← Real.exp_nat_mul]
      norm_num
    by_contra hh
    push Not at hh
    have h4 : (2.718 : ℝ) ^ 5 ≤ Real.exp 1 ^ 5 := pow_le_pow_left₀ (by norm_num) (by linarith [Real.exp_one_gt_d9]) 5
    have := pow_lt_pow_left₀ hh (Real.exp_pos _).le (two_ne_zero)
    rw [h1] at this
    have h5 : (12 : ℝ) ^ 2 ≤ 2.718 ^ 5 := by norm_num
    linarith
  have hDLR : 1 / 128 ≤ (D : ℝ) * L := by
    have h1 := Rat.cast_le (K := ℝ) |>.mpr hDL
    push_cast at h1
    have h2 := Real.one_sub_inv_le_log_of_pos (show (0 : ℝ) < Z0 / D by positivity)
    rw [inv_div, ← hL] at h2
    exact h1.trans (mul_le_mul_of_nonneg_left h2 dR.le)
  obtain ⟨hc, hlog⟩ := coefficient_log hacc hsr ht hq hL0.le hL1 hqL hn1
  generalize coefficient ln exp q t sr = c at *
  generalize timeSamples sr t = n at *
  have n1R : (1 : ℝ) ≤ n := by exact_mod_cast hn1
  have n2R : (n : ℝ) ≤ 2 ^ 19 := by
    have := Rat.cast_le (K := ℝ) |>.mpr hn2
    push_cast at this
    exact this
  have hLl : 1 / 160 ≤ L := by
    have : (D : ℝ) * L ≤ 5 / 4 * L := mul_le_mul_of_nonneg_right (by linarith) hL0.le
    linarith
  have hc1 : (c : ℝ) ≤ 1 := by
    rw [← Real.log_nonpos_iff hc.le]
    have h1 := (abs_le.mp hlog).2
    have h2 : 1 / 160 / (n : ℝ) ≤ L / n := div_le_div_of_nonneg_right hLl (by linarith)
    have h3 : 1 / 2 ^ 45 / (n : ℝ) + 1 / 2 ^ 48 ≤ 1 / 160 / (n : ℝ) := by
      rw [div_add' _ _ _ (by linarith), div_le_div_iff_of_pos_right (by linarith)]
      linarith
    linarith
  have hcQ0 : 0 ≤ c := by exact_mod_cast hc.le
  have hcQ1 : c ≤ 1 := by exact_mod_cast hc1
  have hnear : ∀ k : Nat, k ≤ 2 ^ 20 → |((g * (curve T c w k - T) : ℚ) : ℝ) - (c : ℝ) ^ k * Z0| ≤ k * (1 / 2 ^ 50) := by
    intro k hk
    have h1 := curve_near (w := w) (by rw [hZw]; exact hZ) hT hcQ0 hcQ1 k hk
    have h2 : |g * (curve T c w k - T) - c ^ k * Z0| ≤ k * (1 / 2 ^ 50) := by
      have e : g * (curve T c w k - T) - c ^ k * Z0 = g * (curve T c w k - T - c ^ k * (w - T)) := by rw [hZ0]; ring
      rw [e, abs_mul, hg, one_mul]
      exact h1
    have := Rat.cast_le (K := ℝ) |>.mpr h2
    push_cast at this ⊢
    exact this
  obtain ⟨lo, hi⟩ := reach n1R n2R hL0 hL1 dR (by linarith) hDLR
    (by rw [hL, Real.exp_log (by positivity)]; field_simp) hc hlog hnear
  have ex : ∃ k : Nat, g * (curve T c w k - T) ≤ D := by
    have hceil := Nat.ceil_lt_add_one (show (0 : ℝ) ≤ n by linarith)
    have hceil2 := Nat.le_ceil (n : ℝ)
    have := hi (⌈(n : ℝ)⌉₊ + 1) (by push_cast; linarith) (by push_cast; linarith)
    exact ⟨_, by exact_mod_cast this.le⟩
  classical
  refine ⟨Nat.find ex, ?_, ?_, fun k hk => not_le.mp (Nat.find_min ex hk), Nat.find_spec ex⟩
  · by_contra hh
    push Not at hh
    have h1 : ((Nat.find ex : ℕ) : ℝ) ≤ (n : ℝ) - 1 := by exact_mod_cast hh
    have h2 := lo _ h1
    have h3 := Nat.find_spec ex
    have h4 : ((g * (curve T c w (Nat.find ex) - T) : ℚ) : ℝ) ≤ D := by exact_mod_cast h3
    linarith
  · have hceil := Nat.ceil_lt_add_one (show (0 : ℝ) ≤ n by linarith)
    have hceil2 := Nat.le_ceil (n : ℝ)
    have := hi (⌈(n : ℝ)⌉₊ + 1) (by push_cast; linarith) (by push_cast; linarith)
    have h5 : Nat.find ex ≤ ⌈(n : ℝ)⌉₊ + 1 := Nat.find_min' ex (by exact_mod_cast this.le)
    have h6 : ((Nat.find ex : ℕ) : ℝ) ≤ ⌈(n : ℝ)⌉₊ + 1 := by exact_mod_cast h5
    have h7 : ((Nat.find ex : ℕ) : ℝ) < (n : ℝ) + 2 := by linarith
    exact_mod_cast h7

theorem frames_add (e : Adsr64) (m : Nat) : ∀ k, frames e (m + k) = frames (frames e m) k
  | 0 => rfl
  | k + 1 => by
    change (frames e (m + k)).process = (frames (frames e m) k).process
    rw [frames_add e m k]

theorem frames_fixed {e : Adsr64} (h : e.process = e) : ∀ k, frames e k = e
  | 0 => rfl
  | k + 1 => by
    change (frames e k).process = e
    rw [frames_fixed h k, h]

theorem attack_frames {e : Adsr64} (hp : e.phase = .attack) : ∀ k : Nat,
    (∀ j, j ≤ k → curve attackTarget e.attackCoefficient e.envelope j < 1) →
    frames e k = { e with envelope := curve attackTarget e.attackCoefficient e.envelope k, phase := .attack }
  | 0, _ => by
    cases e
    simp only at hp
    subst hp
    rfl
  | k + 1, h => by
    change (frames e k).process = _
    rw [attack_frames hp k fun j hj => h j (by omega)]
    have h1 := h (k + 1) le_rfl
    change processExponential _ _ _ < 1 at h1
    simp only [process, curve, min_eq_left h1.le, if_neg (not_le.mpr h1)]

theorem attack_end {e : Adsr64} (hp : e.phase = .attack) {k : Nat}
    (h : ∀ j, j ≤ k → curve attackTarget e.attackCoefficient e.envelope j < 1)
    (hk : 1 ≤ curve attackTarget e.attackCoefficient e.envelope (k + 1)) :
    frames e (k + 1) = { e with envelope := 1, phase := .decay } := by
  change (frames e k).process = _
  rw [attack_frames hp k h]
  change 1 ≤ processExponential _ _ _ at hk
  simp only [process, min_eq_right hk, le_refl, if_true]

theorem decay_frames {e : Adsr64} (hp : e.phase = .decay) : ∀ k : Nat,
    (∀ j, j ≤ k → e.sustainLevel < curve decayTarget e.decayCoefficient e.envelope j) →
    frames e k = { e with envelope := curve decayTarget e.decayCoefficient e.envelope k, phase := .decay }
  | 0, _ => by
    cases e
    simp only at hp
    subst hp
    rfl
  | k + 1, h => by
    change (frames e k).process = _
    rw [decay_frames hp k fun j hj => h j (by omega)]
    have h1 := h (k + 1) le_rfl
    change _ < processExponential _ _ _ at h1
    simp only [process, curve, max_eq_left h1.le, if_neg (not_le.mpr h1)]

theorem decay_end {e : Adsr64} (hp : e.phase = .decay) {k : Nat}
    (h : ∀ j, j ≤ k → e.sustainLevel < curve decayTarget e.decayCoefficient e.envelope j)
    (hk : curve decayTarget e.decayCoefficient e.envelope (k + 1) ≤ e.sustainLevel) :
    frames e (k + 1) = { e with envelope := e.sustainLevel, phase := .sustain } := by
  change (frames e k).process = _
  rw [decay_frames hp k h]
  change processExponential _ _ _ ≤ _ at hk
  simp only [process, max_eq_right hk, le_refl, if_true]

theorem release_frames {e : Adsr64} (hp : e.phase = .release) : ∀ k : Nat,
    (∀ j, j ≤ k → 0 < curve releaseTarget e.releaseCoefficient e.envelope j) →
    frames e k = { e with envelope := curve releaseTarget e.releaseCoefficient e.envelope k, phase := .release }
  | 0, _ => by
    cases e
    simp only at hp
    subst hp
    rfl
  | k + 1, h => by
    change (frames e k).process = _
    rw [release_frames hp k fun j hj => h j (by omega)]
    have h1 := h (k + 1) le_rfl
    change _ < processExponential _ _ _ at h1
    simp only [process, curve, max_eq_left h1.le, if_neg (not_le.mpr h1)]

theorem release_end {e : Adsr64} (hp : e.phase = .release) {k : Nat}
    (h : ∀ j, j ≤ k → 0 < curve releaseTarget e.releaseCoefficient e.envelope j)
    (hk : curve releaseTarget e.releaseCoefficient e.envelope (k + 1) ≤ 0) :
    frames e (k + 1) = { e with envelope := 0, phase := .idle } := by
  change (frames e k).process = _
  rw [release_frames hp k h]
  change processExponential _ _ _ ≤ _ at hk
  simp only [process, max_eq_right hk, le_refl, if_true]

theorem log_round_div {a b : ℚ} (ha : 1 / 16 ≤ a) (hb : 1 / 16 ≤ b) (hb2 : b ≤ 2) :
    0 < Float64.round (a / b) ∧ |Real.log (Float64.round (a / b) : ℚ) - (Real.log a - Real.log b)| ≤ 4 * (1 / 2 ^ 53) := by
  have h0 : (1 / 32 : ℚ) ≤ a / b := by
    rw [le_div_iff₀ (by linarith)]
    linarith
  have small : (1 : ℝ) / 2 ^ 900 ≤ 1 / 32 := by
    have : (32 : ℝ) = 2 ^ 5 := by norm_num
    rw [this]
    exact one_div_le_one_div_of_le (by positivity) (pow_le_pow_right₀ (by norm_num) (by norm_num))
  have h1 : (1 / 32 : ℝ) ≤ ((a / b : ℚ) : ℝ) := by
    have := Rat.cast_le (K := ℝ) |>.mpr h0
    push_cast at this ⊢
    exact this
  obtain ⟨p, hl⟩ := Float64.round_log (small.trans h1)
  refine ⟨by exact_mod_cast p, ?_⟩
  have aR : (0 : ℝ) < a := by exact_mod_cast (by linarith : (0 : ℚ) < a)
  have bR : (0 : ℝ) < b := by exact_mod_cast (by linarith : (0 : ℚ) < b)
  push_cast at hl
  rwa [Real.log_div aR.ne' bR.ne'] at hl

theorem log_round {a : ℚ} (ha : 1 / 16 ≤ a) : |Real.log (Float64.round a : ℚ) - Real.log a| ≤ 4 * (1 / 2 ^ 53) := by
  have small : (1 : ℝ) / 2 ^ 900 ≤ 1 / 16 := by
    have : (16 : ℝ) = 2 ^ 4 := by norm_num
    rw [this]
    exact one_div_le_one_div_of_le (by positivity) (pow_le_pow_right₀ (by norm_num) (by norm_num))
  have h1 : (1 / 16 : ℝ) ≤ (a : ℝ) := by
    have := Rat.cast_le (K := ℝ) |>.mpr ha
    push_cast at this
    exact this
  exact (Float64.round_log (small.trans h1)).2

/-- The length of the attack. -/
theorem attack_length {ln exp : ℚ → ℚ} (hacc : Accurate ln exp) {sr t : Nat} (hsr : 0 < sr)
    (hn1 : 1 ≤ timeSamples sr t) (hn2 : timeSamples sr t ≤ 2 ^ 19) :
    ∃ K : Nat, timeSamples sr t - 1 < K ∧ (K : ℚ) < timeSamples sr t + 2 ∧
      (∀ k < K, curve attackTarget (attackCoefficientFor ln exp t sr) 0 k < 1) ∧
      1 ≤ curve attackTarget (attackCoefficientFor ln exp t sr) 0 K := by
  have b1 : (10999 / 10000 : ℚ) < top := by norm_num [top]
  have b2 : top < 11001 / 10000 := by norm_num [top]
  have e : Float64.round (top - 1) = top - 1 := by
    apply Float64.round_of_rep
    have := Float64.rep_div (4953959590107546 - 2 ^ 52) 52 (by norm_num) (by norm_num)
    have e : top - 1 = ((4953959590107546 - 2 ^ 52 : ℕ) : ℚ) / 2 ^ 52 := by norm_num [top]
    rw [e]
    exact this
  have hq := log_round_div (a := top - 1) (b := top) (by linarith) (by linarith) (by linarith)
  unfold attackCoefficientFor
  rw [attackTarget_eq, e]
  generalize top = T at *
  have p1 : (0 : ℝ) < ((T - 1 : ℚ) : ℝ) := by exact_mod_cast (by linarith : (0 : ℚ) < T - 1)
  have p2 : (0 : ℝ) < (T : ℝ) := by exact_mod_cast (by linarith : (0 : ℚ) < T)
  obtain ⟨K, k1, k2, k3, k4⟩ := stage hacc hsr (q := Float64.round ((T - 1) / T)) (T := T) (w := 0) (v := 1) (g := -1) (t := t)
    (by norm_num) hq.1 (by rw [abs_le]; constructor <;> linarith) (by linarith) (by linarith) (by linarith) (by linarith)
    (by
      have e2 : -1 * (1 - T) * (1 - -1 * (1 - T) / (-1 * (0 - T))) = (T - 1) / T := by
        have : T ≠ 0 := by linarith
        field_simp
        ring
      rw [e2, le_div_iff₀ (by linarith)]
      linarith)
    (by
      have e3 : (-1 * (1 - T) : ℚ) = T - 1 := by ring
      have e4 : (-1 * (0 - T) : ℚ) = T := by ring
      rw [e3, e4, Real.log_div p1.ne' p2.ne']
      exact hq.2.trans (by norm_num)) hn1 hn2
  exact ⟨K, k1, k2, fun k hk => by have := k3 k hk; linarith, by linarith⟩

/-- The length of the decay. -/
theorem decay_length {ln exp : ℚ → ℚ} (hacc : Accurate ln exp) {sr t : Nat} (hsr : 0 < sr) {s : ℚ} (h0 : 0 ≤ s) (h1 : s ≤ 99 / 100)
    (hn1 : 1 ≤ timeSamples sr t) (hn2 : timeSamples sr t ≤ 2 ^ 19) :
    ∃ K : Nat, timeSamples sr t - 1 < K ∧ (K : ℚ) < timeSamples sr t + 2 ∧
      (∀ k < K, s < curve decayTarget (decayCoefficientFor ln exp t s sr) 1 k) ∧
      curve decayTarget (decayCoefficientFor ln exp t s sr) 1 K ≤ s := by
  have b1 : (9999 / 100000 : ℚ) < tenth := by norm_num [tenth]
  have b2 : tenth < 10001 / 100000 := by norm_num [tenth]
  have b3 : (10999 / 10000 : ℚ) < top := by norm_num [top]
  have b4 : top < 11001 / 10000 := by norm_num [top]
  have hs := sustain_range h0 (h1.trans (by norm_num))
  have hq := log_round_div (a := Float64.round (s + tenth)) (b := top) (by linarith) (by linarith) (by linarith)
  have hla := log_round (a := s + tenth) (by linarith)
  have hlb := log_round (a := 1 + tenth) (by linarith)
  unfold decayCoefficientFor
  rw [decayTarget_eq, sub_neg_eq_add, sub_neg_eq_add]
  rw [round_top] at hlb ⊢
  generalize top = R at *
  generalize Float64.round (s + tenth) = a at *
  generalize tenth = u at *
  have p1 : (0 : ℝ) < ((s + u : ℚ) : ℝ) := by exact_mod_cast (by linarith : (0 : ℚ) < s + u)
  have p2 : (0 : ℝ) < ((1 + u : ℚ) : ℝ) := by exact_mod_cast (by linarith : (0 : ℚ) < 1 + u)
  obtain ⟨K, k1, k2, k3, k4⟩ := stage hacc hsr (q := Float64.round (a / R)) (T := -u) (w := 1) (v := s) (g := 1) (t := t)
    (by norm_num) hq.1 (by rw [abs_le]; constructor <;> linarith) (by linarith) (by linarith) (by linarith) (by linarith)
    (by
      have hu : 0 < 1 + u := by linarith
      have e2 : 1 * (s - -u) * (1 - 1 * (s - -u) / (1 * (1 - -u))) = (s + u) * (1 - s) / (1 + u) := by
        have : 1 + u ≠ 0 := hu.ne'
        rw [one_mul, one_mul, sub_neg_eq_add, sub_neg_eq_add]
        field_simp
        ring
      rw [e2, le_div_iff₀ hu]
      nlinarith [mul_nonneg h0 (show 0 ≤ 99 / 100 - s by linarith)])
    (by
      rw [one_mul, one_mul, sub_neg_eq_add, sub_neg_eq_add, Real.log_div p1.ne' p2.ne']
      have g1 := abs_le.mp hq.2
      have g2 := abs_le.mp hla
      have g3 := abs_le.mp hlb
      rw [abs_le]
      constructor <;> linarith) hn1 hn2
  exact ⟨K, k1, k2, fun k hk => by have := k3 k hk; linarith, by linarith⟩

/-- The length of the release. -/
theorem release_length {ln exp : ℚ → ℚ} (hacc : Accurate ln exp) {sr t : Nat} (hsr : 0 < sr) {s : ℚ} (h0 : 1 / 100 ≤ s) (h1 : s ≤ 1)
    (hn1 : 1 ≤ timeSamples sr t) (hn2 : timeSamples sr t ≤ 2 ^ 19) :
    ∃ K : Nat, timeSamples sr t - 1 < K ∧ (K : ℚ) < timeSamples sr t + 2 ∧
      (∀ k < K, 0 < curve releaseTarget (releaseCoefficientFor ln exp t s sr) s k) ∧
      curve releaseTarget (releaseCoefficientFor ln exp t s sr) s K ≤ 0 := by
  have b1 : (9999 / 100000 : ℚ) < tenth := by norm_num [tenth]
  have b2 : tenth < 10001 / 100000 := by norm_num [tenth]
  have b4 : top < 11001 / 10000 := by norm_num [top]
  have hs := sustain_range (by linarith : 0 ≤ s) h1
  have hq := log_round_div (a := tenth) (b := Float64.round (s + tenth)) (by linarith) (by linarith) (by linarith)
  have hla := log_round (a := s + tenth) (by linarith)
  unfold releaseCoefficientFor
  rw [releaseTarget_eq, sub_neg_eq_add, neg_neg]
  generalize Float64.round (s + tenth) = a at *
  generalize tenth = u at *
  have p1 : (0 : ℝ) < ((s + u : ℚ) : ℝ) := by exact_mod_cast (by linarith : (0 : ℚ) < s + u)
  have p2 : (0 : ℝ) < (u : ℝ) := by exact_mod_cast (by linarith : (0 : ℚ) < u)
  obtain ⟨K, k1, k2, k3, k4⟩ := stage hacc hsr (q := Float64.round (u / a)) (T := -u) (w := s) (v := 0) (g := 1) (t := t)
    (by norm_num) hq.1 (by rw [abs_le]; constructor <;> linarith) (by linarith) (by linarith) (by linarith) (by linarith)
    (by
      have hu : 0 < s + u := by linarith
      have e2 : 1 * (0 - -u) * (1 - 1 * (0 - -u) / (1 * (s - -u))) = u * s / (s + u) := by
        have : s + u ≠ 0 := hu.ne'
        rw [one_mul, one_mul, sub_neg_eq_add, sub_neg_eq_add, zero_add]
        field_simp
        ring
      rw [e2, le_div_iff₀ hu]
      nlinarith [mul_le_mul_of_nonneg_right b1.le (show 0 ≤ s by linarith)])
    (by
      rw [one_mul, one_mul, sub_neg_eq_add, sub_neg_eq_add, zero_add, Real.log_div p2.ne' p1.ne']
      have g1 := abs_le.mp hq.2
      have g2 := abs_le.mp hla
      rw [abs_le]
      constructor <;> linarith) hn1 hn2
  exact ⟨K, k1, k2, fun k hk => by have := k3 k hk; linarith, by linarith⟩

/-- An envelope with these settings. -/
structure Settled (ln exp : ℚ → ℚ) (sr : Nat) (s : Adsr64Settings) (e : Adsr64) : Prop where
  rate : e.sampleRate = sr
  attack : e.attackCoefficient = attackCoefficientFor ln exp s.attack sr
  decay : e.decayCoefficient = decayCoefficientFor ln exp s.decay s.sustain sr
  sustain : e.sustainLevel = s.sustain
  release : e.releaseCoefficient = releaseCoefficientFor ln exp s.release s.sustain sr
  decayTime : e.decayTime = s.decay
  releaseTime : e.releaseTime = s.release
  idle : e.phase = .idle → e.envelope = 0

theorem process_settled {ln exp : ℚ → ℚ} {sr : Nat} {s : Adsr64Settings} {e : Adsr64} (h : Settled ln exp sr s e) :
    Settled ln exp sr s e.process := by
  obtain ⟨h1, h2, h3, h4, h5, h6, h7, -⟩ := h
  unfold process
  cases hp : e.phase with
  | idle => exact ⟨h1, h2, h3, h4, h5, h6, h7, fun _ => rfl⟩
  | attack => exact ⟨h1, h2, h3, h4, h5, h6, h7, fun hh => by dsimp only at hh; split at hh <;> cases hh⟩
  | decay => exact ⟨h1, h2, h3, h4, h5, h6, h7, fun hh => by dsimp only at hh; split at hh <;> cases hh⟩
  | sustain => exact ⟨h1, h2, h3, h4, h5, h6, h7, fun hh => by dsimp only at hh; cases hh⟩
  | release =>
    refine ⟨h1, h2, h3, h4, h5, h6, h7, fun hh => ?_⟩
    dsimp only at hh ⊢
    split at hh
    · rename_i h0
      exact le_antisymm h0 (le_max_right _ _)
    · cases hh

theorem act_settled {ln exp : ℚ → ℚ} {sr : Nat} {s : Adsr64Settings} {e : Adsr64} (h : Settled ln exp sr s e) (a : Adsr64Action) :
    Settled ln exp sr (s.act a) (act ln exp e a) := by
  cases a with
  | frame => exact process_settled h
  | noteOn => exact ⟨h.rate, h.attack, h.decay, h.sustain, h.release, h.decayTime, h.releaseTime, fun hh => by cases hh⟩
  | noteOff =>
    refine ⟨h.rate, h.attack, h.decay, h.sustain, h.release, h.decayTime, h.releaseTime, fun hh => h.idle ?_⟩
    simp only [act, closed] at hh
    split at hh
    · assumption
    · cases hh
  | setAttack t =>
    exact ⟨h.rate, by simp only [act, setAttack, h.rate]; rfl, h.decay, h.sustain, h.release, h.decayTime, h.releaseTime, h.idle⟩
  | setDecay t =>
    exact ⟨h.rate, h.attack, by simp only [act, setDecay, h.rate, h.sustain]; rfl, h.sustain, h.release, rfl, h.releaseTime, h.idle⟩
  | setSustain l =>
    exact ⟨h.rate, h.attack, by simp only [act, setSustain, h.rate, h.decayTime]; rfl, rfl,
      by simp only [act, setSustain, h.rate, h.releaseTime]; rfl, h.decayTime, h.releaseTime, h.idle⟩
  | setRelease t =>
    exact ⟨h.rate, h.attack, h.decay, h.sustain, by simp only [act, setRelease, h.rate, h.sustain]; rfl, h.decayTime, rfl, h.idle⟩

theorem fold_settled {ln exp : ℚ → ℚ} {sr : Nat} : ∀ (as : List Adsr64Action) {s : Adsr64Settings} {e : Adsr64},
    Settled ln exp sr s e → Settled ln exp sr (as.foldl Adsr64Settings.act s) (as.foldl (act ln exp) e)
  | [], _, _, h => h
  | a :: as, _, _, h => fold_settled as (act_settled h a)

theorem after_settled (ln exp : ℚ → ℚ) (sr : Nat) (s : Adsr64Settings) (as : List Adsr64Action) :
    Settled ln exp sr (as.foldl Adsr64Settings.act s) (after ln exp sr s as) :=
  fold_settled as ⟨rfl, rfl, rfl, rfl, rfl, rfl, rfl, fun _ => rfl⟩

/-- There are functions that are accurate and contracting. -/
theorem contracting_exists : ∃ ln exp : ℚ → ℚ, Accurate ln exp ∧ Contracting ln exp := by
  have h1 : ∀ x : ℚ, ∃ q : ℚ, |(q : ℝ) - Real.log x| ≤ |Real.log x| * (1 / 2 ^ 50) ∧ (q : ℝ) ≤ Real.log x := by
    intro x
    rcases eq_or_ne (Real.log x) 0 with h | h
    · exact ⟨0, by rw [h]; simp, by rw [h]; simp⟩
    · have hp : 0 < |Real.log x| * (1 / 2 ^ 50) := mul_pos (abs_pos.mpr h) (by positivity)
      obtain ⟨q, q1, q2⟩ := exists_rat_btwn (show Real.log x - |Real.log x| * (1 / 2 ^ 50) < Real.log x by linarith)
      exact ⟨q, by rw [abs_le]; constructor <;> linarith, q2.le⟩
  have h2 : ∀ x : ℚ, ∃ q : ℚ, |(q : ℝ) - Real.exp x| ≤ Real.exp x * (1 / 2 ^ 50) ∧ (q : ℝ) ≤ Real.exp x := by
    intro x
    have hp : 0 < Real.exp x * (1 / 2 ^ 50) := mul_pos (Real.exp_pos _) (by positivity)
    obtain ⟨q, q1, q2⟩ := exists_rat_btwn (show Real.exp x - Real.exp x * (1 / 2 ^ 50) < Real.exp x by linarith)
    exact ⟨q, by rw [abs_le]; constructor <;> linarith, q2.le⟩
  choose ln hln using h1
  choose exp hexp using h2
  refine ⟨ln, exp, ⟨fun x _ => (hln x).1, fun x _ => (hexp x).1⟩, ⟨fun x h0 h1 => ?_, fun x hx => ?_⟩⟩
  · have h2 : Real.log x ≤ 0 := Real.log_nonpos (by exact_mod_cast h0.le) (by exact_mod_cast h1)
    have h3 := (hln x).2.trans h2
    exact_mod_cast h3
  · have h2 : Real.exp x ≤ 1 := Real.exp_le_one_iff.mpr (by exact_mod_cast hx)
    have h3 := (hexp x).2.trans h2
    have h4 := (abs_le.mp (hexp x).1).1
    have h5 : (0 : ℝ) ≤ exp x := by linarith [Real.exp_pos (x : ℝ)]
    exact ⟨by exact_mod_cast h5, by exact_mod_cast h3⟩

end Adsr64
end Rawdio
