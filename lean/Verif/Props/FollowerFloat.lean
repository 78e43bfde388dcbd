import Verif.Lemmas.FollowerFloat2

/-! # The envelope follower in the arithmetic of `f32` (C105) -/

namespace Rawdio
namespace Follower32

/-- The coefficients belong to the times. -/
structure Ok (exp : ℚ → ℚ) (sr : Nat) (N : ℚ) (e : Follower32) : Prop where
  rate : e.sampleRate = sr
  attack : e.attackCoefficient = calculateCoefficient exp sr e.attackTime
  release : e.releaseCoefficient = calculateCoefficient exp sr e.releaseTime
  attackTime : timeSamples sr e.attackTime ≤ N
  releaseTime : timeSamples sr e.releaseTime ≤ N
  level : 0 ≤ e.level
  rep : Float32.Rep e.level

/-- All times in a history are at most `N` samples. -/
def TimesUpTo (sr : Nat) (N : ℚ) (as : List FollowerAction32) : Prop :=
  ∀ a ∈ as, match a with
    | .attack t => timeSamples sr t ≤ N
    | .release t => timeSamples sr t ≤ N
    | .sample _ => True

section
variable {exp : ℚ → ℚ} {sr : Nat} {N : ℚ}

theorem process_level (e : Follower32) (x : ℚ) :
    (e.process x).1.level = step (Float32.round (if e.level < |x| then e.attackCoefficient else e.releaseCoefficient)) e.level |x| := rfl

theorem Ok.coefficient (hexp : AccurateDecay exp) (hsr : 0 < sr) (hN : 64 ≤ N) (hN2 : N ≤ 2 ^ 20) {e : Follower32}
    (h : Ok exp sr N e) (x : ℚ) :
    0 ≤ Float32.round (if e.level < |x| then e.attackCoefficient else e.releaseCoefficient) ∧
    Float32.round (if e.level < |x| then e.attackCoefficient else e.releaseCoefficient) ≤ 1 - 15 / (16 * N) := by
  split_ifs
  · rw [h.attack]
    exact rounded_le hexp hsr hN hN2 h.attackTime
  · rw [h.release]
    exact rounded_le hexp hsr hN hN2 h.releaseTime

theorem coefficient_le_one (hN : 64 ≤ N) {a : ℚ} (h : a ≤ 1 - 15 / (16 * N)) : a ≤ 1 := by
  have : (0 : ℚ) ≤ 15 / (16 * N) := by positivity
  linarith

theorem Ok.process (hexp : AccurateDecay exp) (hsr : 0 < sr) (hN : 64 ≤ N) (hN2 : N ≤ 2 ^ 20) {e : Follower32}
    (h : Ok exp sr N e) (x : ℚ) : Ok exp sr N (e.process x).1 := by
  obtain ⟨c0, c1⟩ := h.coefficient hexp hsr hN hN2 x
  have c1' := coefficient_le_one hN c1
  refine ⟨h.rate, h.attack, h.release, h.attackTime, h.releaseTime, step_nonneg c0 c1' h.level (abs_nonneg x), ?_⟩
  rw [process_level]
  exact Float32.rep_round (add_nonneg (Float32.round_nonneg (mul_nonneg h.level c0))
    (Float32.round_nonneg (mul_nonneg (abs_nonneg x) (Float32.round_nonneg (by linarith)))))

theorem Ok.setAttack {e : Follower32} (h : Ok exp sr N e) {t : Nat} (ht : timeSamples sr t ≤ N) :
    Ok exp sr N (e.setAttackTime exp t) ∧ (e.setAttackTime exp t).level = e.level := by
  unfold setAttackTime
  split_ifs
  · exact ⟨⟨h.rate, by rw [h.rate], h.release, ht, h.releaseTime, h.level, h.rep⟩, rfl⟩
  · exact ⟨h, rfl⟩

theorem Ok.setRelease {e : Follower32} (h : Ok exp sr N e) {t : Nat} (ht : timeSamples sr t ≤ N) :
    Ok exp sr N (e.setReleaseTime exp t) ∧ (e.setReleaseTime exp t).level = e.level := by
  unfold setReleaseTime
  split_ifs
  · exact ⟨⟨h.rate, h.attack, by rw [h.rate], h.attackTime, ht, h.level, h.rep⟩, rfl⟩
  · exact ⟨h, rfl⟩

theorem new_ok {a r : Nat} (ha : timeSamples sr a ≤ N) (hr : timeSamples sr r ≤ N) : Ok exp sr N (new exp sr a r) :=
  ⟨rfl, rfl, rfl, ha, hr, le_rfl, ⟨0, 0, by simp [new], by norm_num, by norm_num⟩⟩

theorem after_ok (hexp : AccurateDecay exp) (hsr : 0 < sr) (hN : 64 ≤ N) (hN2 : N ≤ 2 ^ 20) {a r : Nat}
    (ha : timeSamples sr a ≤ N) (hr : timeSamples sr r ≤ N) (as : List FollowerAction32) (has : TimesUpTo sr N as) :
    Ok exp sr N (after exp sr a r as) := by
  unfold after
  have : ∀ (as : List FollowerAction32), TimesUpTo sr N as → ∀ e, Ok exp sr N e → Ok exp sr N (as.foldl (act exp) e) := by
    intro as
    induction as with
    | nil => intro _ e h; exact h
    | cons x as ih =>
      intro has e h
      have hx := has x List.mem_cons_self
      refine ih (fun y hy => has y (List.mem_cons_of_mem _ hy)) _ ?_
      cases x with
      | attack t => exact (h.setAttack hx).1
      | release t => exact (h.setRelease hx).1
      | sample x => exact h.process hexp hsr hN hN2 x
  exact this as has _ (new_ok ha hr)

theorem steady_ok (hexp : AccurateDecay exp) (hsr : 0 < sr) (hN : 64 ≤ N) (hN2 : N ≤ 2 ^ 20) {e : Follower32}
    (h : Ok exp sr N e) (x : ℚ) : ∀ n, Ok exp sr N (e.steady x n)
  | 0 => h
  | n + 1 => (steady_ok hexp hsr hN hN2 h x n).process hexp hsr hN hN2 x

end

/-- C105: in the arithmetic of `f32`, after every history the level is not negative, and above the loudest sample so far
at most by what the rounding adds, which grows with the longest time that has been set. -/
theorem C105_bounds (exp : ℚ → ℚ) (hexp : AccurateDecay exp) (sr : Nat) (hsr : 0 < sr) (N : ℚ) (hN : 64 ≤ N)
    (hN2 : N ≤ 2 ^ 20) (a r : Nat) (ha : timeSamples sr a ≤ N) (hr : timeSamples sr r ≤ N)
    (as : List FollowerAction32) (has : TimesUpTo sr N as) (loudest : ℚ) (h0 : 0 ≤ loudest)
    (hl : ∀ x, .sample x ∈ as → |x| ≤ loudest) :
    0 ≤ (after exp sr a r as).level ∧
    (after exp sr a r as).level ≤ loudest + (3 * N / 2 ^ 24 * loudest + 5 * N / 2 ^ 150) := by
  refine ⟨(after_ok hexp hsr hN hN2 ha hr as has).level, ?_⟩
  unfold after
  have : ∀ (as : List FollowerAction32), TimesUpTo sr N as → (∀ x, .sample x ∈ as → |x| ≤ loudest) → ∀ e, Ok exp sr N e →
      e.level ≤ loudest + slack N loudest → (as.foldl (act exp) e).level ≤ loudest + slack N loudest := by
    intro as
    induction as with
    | nil => intro _ _ e _ h; exact h
    | cons x as ih =>
      intro has hl e h he
      have hx := has x List.mem_cons_self
      have ih' := ih (fun y hy => has y (List.mem_cons_of_mem _ hy)) (fun y hy => hl y (List.mem_cons_of_mem _ hy))
      cases x with
      | attack t =>
        obtain ⟨k1, k2⟩ := h.setAttack hx
        exact ih' _ k1 (by show (e.setAttackTime exp t).level ≤ _; rw [k2]; exact he)
      | release t =>
        obtain ⟨k1, k2⟩ := h.setRelease hx
        exact ih' _ k1 (by show (e.setReleaseTime exp t).level ≤ _; rw [k2]; exact he)
      | sample x =>
        refine ih' _ (h.process hexp hsr hN hN2 x) ?_
        obtain ⟨c0, c1⟩ := h.coefficient hexp hsr hN hN2 x
        show (e.process x).1.level ≤ _
        rw [process_level]
        exact step_le hN hN2 c0 c1 (abs_nonneg x) (hl x List.mem_cons_self) h.level he
  refine this as has hl _ (new_ok ha hr) ?_
  have := slack_nonneg hN h0
  show (0 : ℚ) ≤ _
  linarith

/-- The coefficients are always those of the times. -/
theorem after_times (exp : ℚ → ℚ) (sr a r : Nat) (as : List FollowerAction32) :
    (after exp sr a r as).sampleRate = sr ∧
    (after exp sr a r as).attackCoefficient = calculateCoefficient exp sr (after exp sr a r as).attackTime ∧
    (after exp sr a r as).releaseCoefficient = calculateCoefficient exp sr (after exp sr a r as).releaseTime := by
  unfold after
  have : ∀ (as : List FollowerAction32) (e : Follower32), (e.sampleRate = sr ∧
      e.attackCoefficient = calculateCoefficient exp sr e.attackTime ∧
      e.releaseCoefficient = calculateCoefficient exp sr e.releaseTime) →
      ((as.foldl (act exp) e).sampleRate = sr ∧
        (as.foldl (act exp) e).attackCoefficient = calculateCoefficient exp sr (as.foldl (act exp) e).attackTime ∧
        (as.foldl (act exp) e).releaseCoefficient = calculateCoefficient exp sr (as.foldl (act exp) e).releaseTime) := by
    intro as
    induction as with
    | nil => intro e h; exact h
    | cons x as ih =>
      intro e ⟨h1, h2, h3⟩
      apply ih
      cases x with
      | attack t =>
        simp only [act, setAttackTime]
        split_ifs
        · exact ⟨h1, by rw [h1], h3⟩
        · exact ⟨h1, h2, h3⟩
      | release t =>
        simp only [act, setReleaseTime]
        split_ifs
        · exact ⟨h1, h2, by rw [h1]⟩
        · exact ⟨h1, h2, h3⟩
      | sample x => exact ⟨h1, h2, h3⟩
  exact this as _ ⟨rfl, rfl, rfl⟩

/-- C105: after times have been set a follower goes on from its level exactly as a new one with these times does, whatever
has happened before. -/
theorem C105_times (exp : ℚ → ℚ) (sr a r : Nat) (as : List FollowerAction32) (t u : Nat) :
    after exp sr a r (as ++ [.attack t, .release u]) = { new exp sr t u with level := (after exp sr a r as).level } ∧
      after exp sr a r (as ++ [.release u, .attack t]) = { new exp sr t u with level := (after exp sr a r as).level } := by
  obtain ⟨h1, h2, h3⟩ := after_times exp sr a r as
  have e1 : ∀ l, after exp sr a r (as ++ l) = l.foldl (act exp) (after exp sr a r as) := fun l => by
    unfold after
    rw [List.foldl_append]
  rw [e1, e1]
  generalize after exp sr a r as = e at *
  obtain ⟨level, sr', at', rt', ac, rc⟩ := e
  simp only at h1 h2 h3
  subst h1 h2 h3
  simp only [List.foldl_cons, List.foldl_nil, act, setAttackTime, setReleaseTime, new]
  constructor <;> by_cases ht : at' = t <;> by_cases hu : rt' = u <;> simp [ht, hu]

/-- Times set in the middle of a signal, the release before the attack. -/
example (exp : ℚ → ℚ) : (after exp 48000 5 7 [.sample 1, .release 9, .attack 3]).attackCoefficient =
    calculateCoefficient exp 48000 3 := by
  rw [show [FollowerAction32.sample 1, .release 9, .attack 3] = [.sample 1] ++ [.release 9, .attack 3] from rfl,
    (C105_times exp 48000 5 7 [.sample 1] 3 9).2]
  rfl

/-- C105: after every history a constant input is approached exponentially, up to what the rounding adds. -/
theorem C105_converges_partial (exp : ℚ → ℚ) (hexp : AccurateDecay exp) (sr : Nat) (hsr : 0 < sr) (N : ℚ) (hN : 64 ≤ N)
    (hN2 : N ≤ 2 ^ 20) (a r : Nat) (ha : timeSamples sr a ≤ N) (hr : timeSamples sr r ≤ N)
    (as : List FollowerAction32) (has : TimesUpTo sr N as) (x : ℚ) (n : Nat) :
    |((after exp sr a r as).steady x n).level - (|x|)| ≤
      (1 - 4 / (5 * N)) ^ n * |(after exp sr a r as).level - (|x|)| + (3 * N / 2 ^ 24 * |x| + 5 * N / 2 ^ 150) := by
  have hok := after_ok hexp hsr hN hN2 ha hr as has
  generalize after exp sr a r as = e at *
  show _ ≤ _ + slack N |x|
  have hx := abs_nonneg x
  have hr0 : 0 ≤ 1 - 4 / (5 * N) := by
    have : 4 / (5 * N) ≤ 1 := by rw [div_le_one (by linarith)]; linarith
    linarith
  induction n with
  | zero =>
    have := slack_nonneg hN hx
    rw [pow_zero, one_mul]
    show |e.level - (|x|)| ≤ _
    linarith
  | succ n ih =>
    have hk := steady_ok hexp hsr hN hN2 hok x n
    obtain ⟨c0, c1⟩ := hk.coefficient hexp hsr hN hN2 x
    show |((e.steady x n).process x).1.level - (|x|)| ≤ _
    rw [process_level, pow_succ', mul_assoc]
    exact step_shrink hN hN2 c0 c1 hx hk.level (by positivity) ih

/-- An exponential function as it is assumed exists. -/
theorem accurateDecay_exists : ∃ exp : ℚ → ℚ, AccurateDecay exp := by
  have : ∀ x : ℚ, ∃ q : ℚ, 0 ≤ q ∧ |(q : ℝ) - Real.exp x| ≤ Real.exp x * (1 / 2 ^ 50) + 1 / 2 ^ 1000 := by
    intro x
    obtain ⟨q, hq⟩ := exists_rat_near (Real.exp x) (ε := Real.exp x * (1 / 2 ^ 50))
      (mul_pos (Real.exp_pos _) (by positivity))
    rw [abs_sub_comm] at hq
    refine ⟨q, ?_, ?_⟩
    · have h1 := (abs_lt.mp hq).1
      have h2 : Real.exp x * (1 / 2 ^ 50) ≤ Real.exp x := mul_le_of_le_one_right (Real.exp_pos _).le (by norm_num)
      have : (0 : ℝ) < q := by linarith
      exact_mod_cast this.le
    · have : (0 : ℝ) ≤ 1 / 2 ^ 1000 := by positivity
      linarith
  choose exp h using this
  exact ⟨exp, fun x _ => h x⟩

example : ∃ exp : ℚ → ℚ, ∀ n : Nat,
    |((after exp 48000 (10 ^ 6) (10 ^ 7) [.sample (-1), .attack 0, .sample (1 / 2)]).steady (1 / 4) n).level - 1 / 4| ≤
      (1 - 4 / (5 * 480)) ^ n * (1 + 1 / 1000 + 1 / 4) + 1 / 10000 := by
  obtain ⟨exp, hexp⟩ := accurateDecay_exists
  refine ⟨exp, fun n => ?_⟩
  have hT : TimesUpTo 48000 480 [.sample (-1), .attack 0, .sample (1 / 2)] := by
    intro a ha
    simp only [List.mem_cons, List.not_mem_nil, or_false] at ha
    rcases ha with rfl | rfl | rfl <;> norm_num [timeSamples]
  have h1 := C105_converges_partial exp hexp 48000 (by norm_num) 480 (by norm_num) (by norm_num) (10 ^ 6) (10 ^ 7)
    (by norm_num [timeSamples]) (by norm_num [timeSamples]) _ hT (1 / 4) n
  have h2 := C105_bounds exp hexp 48000 (by norm_num) 480 (by norm_num) (by norm_num) (10 ^ 6) (10 ^ 7)
    (by norm_num [timeSamples]) (by norm_num [timeSamples]) _ hT 1 (by norm_num) (by
      intro x hx
      simp only [List.mem_cons, FollowerAction32.sample.injEq, reduceCtorEq, List.not_mem_nil, or_false, false_or] at hx
      rcases hx with rfl | rfl <;> norm_num [abs_of_pos])
  generalize after exp 48000 (10 ^ 6) (10 ^ 7) [.sample (-1), .attack 0, .sample (1 / 2)] = e at *
  rw [abs_of_pos (show (0 : ℚ) < 1 / 4 by norm_num)] at h1
  have small : (5 : ℚ) * 480 / 2 ^ 150 ≤ 1 / 1000000 := by norm_num
  have h3 : |e.level - 1 / 4| ≤ 1 + 1 / 1000 + 1 / 4 := by
    rw [abs_le]
    norm_num at h2 small ⊢
    constructor <;> linarith
  have h4 := mul_le_mul_of_nonneg_left h3 (show (0 : ℚ) ≤ (1 - 4 / (5 * 480)) ^ n by positivity)
  have h5 : (3 : ℚ) * 480 / 2 ^ 24 * (1 / 4) + 5 * 480 / 2 ^ 150 ≤ 1 / 10000 := by norm_num
  linarith

/-- C105: with a release time of at least two samples a level above 0 never becomes 0 again: in silence it ends among the
subnormal numbers and stays there for ever, so that each of the following samples costs an operation on them. -/
theorem C105_silence_violated (exp : ℚ → ℚ) (hexp : AccurateDecay exp) (sr : Nat) (hsr : 0 < sr) (N : ℚ) (hN : 64 ≤ N)
    (hN2 : N ≤ 2 ^ 20) (a r : Nat) (ha : timeSamples sr a ≤ N) (hr : timeSamples sr r ≤ N)
    (as : List FollowerAction32) (has : TimesUpTo sr N as)
    (h2 : 2 ≤ timeSamples sr (after exp sr a r as).releaseTime) (hpos : 0 < (after exp sr a r as).level) :
    ∃ n₀, ∀ n, n₀ ≤ n → 0 < ((after exp sr a r as).steady 0 n).level ∧
      ((after exp sr a r as).steady 0 n).level < 1 / 2 ^ 126 := by
  have hconv := C105_converges_partial exp hexp sr hsr N hN hN2 a r ha hr as has 0
  have hok := after_ok hexp hsr hN hN2 ha hr as has
  generalize after exp sr a r as = e at *
  simp only [abs_zero, sub_zero, mul_zero, zero_add] at hconv
  have hN0 : 0 < N := by linarith
  have hrel : ∀ n, (e.steady 0 n).releaseCoefficient = e.releaseCoefficient := by
    intro n
    induction n with
    | zero => rfl
    | succ n ih => exact ih
  -- the coefficient is above one half
  have hhalf : 1 / 2 < Float32.round e.releaseCoefficient := by
    rw [hok.release]
    have ht : 0 < e.releaseTime := by
      rcases Nat.eq_zero_or_pos e.releaseTime with h | h
      · rw [h] at h2
        norm_num [timeSamples] at h2
      · exact h
    have hlow := (coefficient_lower hexp hsr ht (by linarith) (hok.releaseTime.trans hN2)).2
    obtain ⟨u0, u1⟩ := coefficient_upper hexp hsr (by linarith) hN2 hok.releaseTime
    generalize calculateCoefficient exp sr e.releaseTime = c at *
    have hq : 3 / 4 ≤ 1 - 1 / (2 * timeSamples sr e.releaseTime) := by
      have : 1 / (2 * timeSamples sr e.releaseTime) ≤ 1 / 4 := one_div_le_one_div_of_le (by norm_num) (by linarith)
      linarith
    have hc : 11 / 20 ≤ c := by
      refine le_trans ?_ hlow
      have e1 : (1 : ℚ) / 2 ^ 45 ≤ 1 / 1000 := by norm_num
      have : (3 / 4 - 1 / 1000 : ℚ) ^ 2 ≤ (1 - 1 / (2 * timeSamples sr e.releaseTime) - 1 / 2 ^ 45) ^ 2 :=
        pow_le_pow_left₀ (by norm_num) (by linarith) 2
      have e2 : (11 : ℚ) / 20 + 1 / 1000 ≤ (3 / 4 - 1 / 1000) ^ 2 := by norm_num
      linarith
    have hm := Float32.round_mono (x := 17 / 32) (y := c) (by norm_num) (by linarith)
    have hr9 : Float32.round (17 / 32) = 17 / 32 :=
      Float32.round_rep (by norm_num) ⟨17, -5, by norm_num, by norm_num, by norm_num⟩
    linarith
  have hone : Float32.round e.releaseCoefficient ≤ 1 := by
    rw [hok.release]
    exact coefficient_le_one hN (rounded_le hexp hsr hN hN2 hok.releaseTime).2
  have hleast : ∀ n, 1 / 2 ^ 149 ≤ (e.steady 0 n).level := by
    intro n
    induction n with
    | zero => exact Float32.rep_least hpos hok.rep
    | succ n ih =>
      have hk := steady_ok hexp hsr hN hN2 hok 0 n
      show _ ≤ ((e.steady 0 n).process 0).1.level
      rw [process_level, abs_zero, if_neg (not_lt.mpr hk.level), hrel]
      unfold step
      rw [zero_mul, Float32.round_zero, add_zero]
      have hp : (0 : ℚ) < 1 / 2 ^ 149 := by positivity
      have h3 := Float32.round_mono (x := 1 / 2 ^ 149 * Float32.round e.releaseCoefficient)
        (mul_nonneg hp.le (by linarith)) (mul_le_mul_of_nonneg_right ih (by linarith))
      rw [Float32.round_least hhalf hone] at h3
      exact Float32.le_round hp.le (by simpa using Float32.rep_div 1 149 (by norm_num) (by norm_num)) h3
  -- and the level falls
  have hrate : 1 - 4 / (5 * N) < 1 := by
    have : 0 < 4 / (5 * N) := by positivity
    linarith
  have hr0 : 0 ≤ 1 - 4 / (5 * N) := by
    have : 4 / (5 * N) ≤ 1 := by rw [div_le_one (by linarith)]; linarith
    linarith
  obtain ⟨n₀, hn₀⟩ := exists_pow_lt_of_lt_one (show (0 : ℚ) < 1 / 2 ^ 127 / e.level by positivity) hrate
  refine ⟨n₀, fun n hn => ⟨lt_of_lt_of_le (by positivity) (hleast n), ?_⟩⟩
  have h3 := hconv n
  rw [abs_of_pos hpos] at h3
  have h4 : (1 - 4 / (5 * N)) ^ n ≤ (1 - 4 / (5 * N)) ^ n₀ := pow_le_pow_of_le_one hr0 hrate.le hn
  have h5 := mul_lt_mul_of_pos_right (lt_of_le_of_lt h4 hn₀) hpos
  rw [div_mul_cancel₀ _ hpos.ne'] at h5
  have h6 : 5 * N / 2 ^ 150 ≤ 1 / 2 ^ 127 := by
    have : 5 * N / 2 ^ 150 ≤ 5 * 2 ^ 20 / 2 ^ 150 := by
      apply div_le_div_of_nonneg_right _ (by positivity)
      linarith
    refine this.trans ?_
    norm_num
  have e1 : (1 : ℚ) / 2 ^ 126 = 1 / 2 ^ 127 + 1 / 2 ^ 127 := by norm_num
  rw [e1]
  have := (le_abs_self _).trans h3
  linarith

theorem first_full (exp : ℚ → ℚ) (sr r : Nat) : (after exp sr 0 r [.sample 1]).level = 1 := by
  have hone : Float32.round 1 = 1 := Float32.round_rep (by norm_num) ⟨1, 0, by norm_num, by norm_num, by norm_num⟩
  show (Follower32.process _ 1).1.level = 1
  rw [process_level, abs_one]
  have h0 : (new exp sr 0 r).level = 0 := rfl
  have ha : (new exp sr 0 r).attackCoefficient = 0 := by
    show calculateCoefficient exp sr 0 = 0
    unfold calculateCoefficient
    rw [if_pos (by simp)]
  rw [h0, ha, if_pos (by norm_num), Float32.round_zero]
  unfold step
  rw [mul_zero, Float32.round_zero, sub_zero, hone, mul_one, hone, zero_add, hone]

example : ∃ exp : ℚ → ℚ, ∃ n₀, ∀ n, n₀ ≤ n →
    0 < ((after exp 48000 0 (10 ^ 7) [.sample 1]).steady 0 n).level ∧
    ((after exp 48000 0 (10 ^ 7) [.sample 1]).steady 0 n).level < 1 / 2 ^ 126 := by
  obtain ⟨exp, hexp⟩ := accurateDecay_exists
  refine ⟨exp, C105_silence_violated exp hexp 48000 (by norm_num) 480 (by norm_num) (by norm_num) 0 (10 ^ 7)
    (by norm_num [timeSamples]) (by norm_num [timeSamples]) _ ?_ ?_ ?_⟩
  · intro a ha
    simp only [List.mem_cons, List.not_mem_nil, or_false] at ha
    rw [ha]
    trivial
  · show 2 ≤ timeSamples 48000 (10 ^ 7)
    norm_num [timeSamples]
  · rw [first_full]
    norm_num

/-- The conversion of a coefficient close to 1. -/
theorem round_coefficient {c : ℚ} (j : ℤ) (hj : 0 < j) (hj2 : j ≤ 2 ^ 22) (h : |c - (1 - j / 2 ^ 24)| < 1 / 2 ^ 25) :
    Float32.round c = 1 - j / 2 ^ 24 := by
  have j1 : (1 : ℚ) ≤ j := by exact_mod_cast hj
  have j2 : (j : ℚ) ≤ 2 ^ 22 := by exact_mod_cast hj2
  have hh := abs_lt.mp h
  rw [Float32.round_eq (e := -1) (by norm_num) (by norm_num at hh j2 ⊢; linarith) (by norm_num at hh j1 ⊢; linarith)]
  have := Float32.grid_near (u := 2 ^ ((-1 : ℤ) - 23)) (y := c) (by positivity) (2 ^ 24 - j) (by
    rw [abs_sub_comm]
    have e : (((2 ^ 24 - j : ℤ)) : ℚ) * 2 ^ ((-1 : ℤ) - 23) = 1 - j / 2 ^ 24 := by
      push_cast
      norm_num
      ring
    rw [e]
    norm_num at h ⊢
    exact h)
  rw [this]
  push_cast
  norm_num
  ring

theorem rep_unit (m : ℤ) (h : |m| < 2 ^ 24) : Float32.Rep (m / 2 ^ 24) :=
  ⟨m, -24, by rw [zpow_neg, div_eq_mul_inv]; norm_cast, h, by norm_num⟩

/-- Steps with `j` units below the factor 1 for a loud input. -/
theorem attack_stall : step (1 - 350 / 2 ^ 24) (1 - 23967 / 2 ^ 24) 1 = 1 - 23967 / 2 ^ 24 := by
  have h1 : Float32.round (1 - (1 - 350 / 2 ^ 24)) = 350 / 2 ^ 24 := by
    have := Float32.round_rep (by norm_num) (rep_unit 350 (by norm_num))
    norm_num at this ⊢
    exact this
  have h2 : Float32.round (1 * (350 / 2 ^ 24)) = 350 / 2 ^ 24 := by
    rw [one_mul]
    have := Float32.round_rep (by norm_num) (rep_unit 350 (by norm_num))
    norm_num at this ⊢
    exact this
  have h3 : Float32.round ((1 - 23967 / 2 ^ 24) * (1 - 350 / 2 ^ 24)) = 1 - (24317 : ℤ) / 2 ^ 24 := by
    apply round_coefficient 24317 (by norm_num) (by norm_num)
    rw [abs_lt]
    constructor <;> norm_num
  unfold step
  rw [h1, h2, h3]
  have := Float32.round_rep (by norm_num) (rep_unit (2 ^ 24 - 23967) (by norm_num))
  norm_num at this ⊢
  exact this

theorem release_stall : step (1 - 35 / 2 ^ 24) (1 / 2 + 479348 / 2 ^ 24) (1 / 2) = 1 / 2 + 479348 / 2 ^ 24 := by
  have h1 : Float32.round (1 - (1 - 35 / 2 ^ 24)) = 35 / 2 ^ 24 := by
    have := Float32.round_rep (by norm_num) (rep_unit 35 (by norm_num))
    norm_num at this ⊢
    exact this
  have h2 : Float32.round (1 / 2 * (35 / 2 ^ 24)) = 35 / 2 ^ 25 := by
    have : Float32.Rep (35 / 2 ^ 25) := ⟨35, -25, by norm_num, by norm_num, by norm_num⟩
    have := Float32.round_rep (by norm_num) this
    norm_num at this ⊢
    exact this
  have h3 : Float32.round ((1 / 2 + 479348 / 2 ^ 24) * (1 - 35 / 2 ^ 24)) = 8867938 / 2 ^ 24 := by
    rw [Float32.round_eq (e := -1) (by norm_num) (by norm_num) (by norm_num),
      Float32.grid_near (by positivity) 8867938 (by rw [abs_lt]; constructor <;> norm_num)]
    norm_num
  unfold step
  rw [h1, h2, h3, Float32.round_eq (e := -1) (by norm_num) (by norm_num) (by norm_num)]
  -- a tie, to the even one
  have h4 : Timestamp.roundHalfEven (17735911 / 2) = 8867956 := by
    have hf : ⌊(17735911 / 2 : ℚ)⌋ = 8867955 := by
      rw [Int.floor_eq_iff]
      constructor <;> norm_num
    unfold Timestamp.roundHalfEven
    simp only [hf]
    norm_num
  unfold Float32.grid
  have e : ((8867938 : ℚ) / 2 ^ 24 + 35 / 2 ^ 25) / 2 ^ ((-1 : ℤ) - 23) = 17735911 / 2 := by norm_num
  rw [e, h4]
  norm_num

/-- C105: an attack time of one second, which the compressor allows, at 48 kHz: a steady input of full scale is never
reached, the level stays below 0.9986 for ever. -/
theorem C105_attack_violated (exp : ℚ → ℚ) (hexp : AccurateDecay exp) (r n : Nat) :
    ((new exp 48000 (10 ^ 9) r).steady 1 n).level ≤ 1 - 23967 / 2 ^ 24 := by
  have hts : timeSamples 48000 (10 ^ 9) = 48000 := by norm_num [timeSamples]
  have hc : Float32.round (calculateCoefficient exp 48000 (10 ^ 9)) = 1 - 350 / 2 ^ 24 := by
    have hcast : (350 : ℚ) = ((350 : ℤ) : ℚ) := by norm_num
    rw [hcast]
    apply round_coefficient 350 (by norm_num) (by norm_num)
    have hu := (coefficient_upper hexp (sr := 48000) (t := 10 ^ 9) (by norm_num) (N := 48000) (by norm_num) (by norm_num) hts.le).2
    have hl := (coefficient_lower hexp (sr := 48000) (t := 10 ^ 9) (by norm_num) (by norm_num) (by rw [hts]; norm_num) (by rw [hts]; norm_num)).1
    rw [hts] at hl
    rw [abs_lt]
    norm_num at hu hl ⊢
    constructor <;> linarith
  have hac : ∀ n, ((new exp 48000 (10 ^ 9) r).steady 1 n).attackCoefficient = calculateCoefficient exp 48000 (10 ^ 9) := by
    intro n
    induction n with
    | zero => rfl
    | succ n ih => exact ih
  have key : ∀ n, 0 ≤ ((new exp 48000 (10 ^ 9) r).steady 1 n).level ∧
      ((new exp 48000 (10 ^ 9) r).steady 1 n).level ≤ 1 - 23967 / 2 ^ 24 := by
    intro n
    induction n with
    | zero =>
      refine ⟨le_rfl, ?_⟩
      show (0 : ℚ) ≤ _
      norm_num
    | succ n ih =>
      show 0 ≤ (Follower32.process _ 1).1.level ∧ (Follower32.process _ 1).1.level ≤ _
      rw [process_level, abs_one, if_pos (by
        refine lt_of_le_of_lt ih.2 ?_
        norm_num), hac, hc]
      refine ⟨step_nonneg (by norm_num) (by norm_num) ih.1 (by norm_num), ?_⟩
      exact (step_mono (by norm_num) (by norm_num) ih.1 ih.2 (by norm_num)).trans attack_stall.le
  exact (key n).2

/-- C105: a release time of ten seconds, which the compressor allows, at 48 kHz: when a steady input falls from full scale
to one half, the level never falls below 0.5285, more than 5% too high, for ever. -/
theorem C105_release_violated (exp : ℚ → ℚ) (hexp : AccurateDecay exp) (n : Nat) :
    1 / 2 + 479348 / 2 ^ 24 ≤ ((after exp 48000 0 (10 ^ 10) [.sample 1]).steady (1 / 2) n).level := by
  have hts : timeSamples 48000 (10 ^ 10) = 480000 := by norm_num [timeSamples]
  have hc : Float32.round (calculateCoefficient exp 48000 (10 ^ 10)) = 1 - 35 / 2 ^ 24 := by
    have hcast : (35 : ℚ) = ((35 : ℤ) : ℚ) := by norm_num
    rw [hcast]
    apply round_coefficient 35 (by norm_num) (by norm_num)
    have hu := (coefficient_upper hexp (sr := 48000) (t := 10 ^ 10) (by norm_num) (N := 480000) (by norm_num) (by norm_num) hts.le).2
    have hl := (coefficient_lower hexp (sr := 48000) (t := 10 ^ 10) (by norm_num) (by norm_num) (by rw [hts]; norm_num) (by rw [hts]; norm_num)).1
    rw [hts] at hl
    rw [abs_lt]
    norm_num at hu hl ⊢
    constructor <;> linarith
  have hfirst := first_full exp 48000 (10 ^ 10)
  have hrel : ∀ n, ((after exp 48000 0 (10 ^ 10) [.sample 1]).steady (1 / 2) n).releaseCoefficient =
      calculateCoefficient exp 48000 (10 ^ 10) := by
    intro n
    induction n with
    | zero => rfl
    | succ n ih => exact ih
  induction n with
  | zero =>
    show _ ≤ (after exp 48000 0 (10 ^ 10) [.sample 1]).level
    rw [hfirst]
    norm_num
  | succ n ih =>
    show _ ≤ (Follower32.process _ (1 / 2)).1.level
    rw [process_level, abs_of_pos (show (0 : ℚ) < 1 / 2 by norm_num), if_neg (by
      rw [not_lt]
      refine le_trans ?_ ih
      norm_num), hrel, hc]
    exact release_stall.ge.trans (step_mono (by norm_num) (by norm_num) (by norm_num) ih (by norm_num))

end Follower32
end Rawdio
