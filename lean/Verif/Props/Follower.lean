import Mathlib.Analysis.SpecificLimits.Basic
import Verif.Lemmas.Follower

/-! # Properties of the envelope follower and the periodic notification (C49, C50) -/

namespace Rawdio

open Topology
open Filter (Tendsto atTop)

/-- What is done with an envelope follower. -/
inductive FollowerAction
  | attack (nanoseconds : Nat)
  | release (nanoseconds : Nat)
  | sample (x : ℝ)

namespace Follower

/-- One action. -/
noncomputable def act (e : Follower) : FollowerAction → Follower
  | .attack t => e.setAttackTime t
  | .release t => e.setReleaseTime t
  | .sample x => (e.process x).1

/-- A follower after a history. -/
noncomputable def after (sampleRate : ℝ) (attack release : Nat) (as : List FollowerAction) : Follower :=
  as.foldl act (new sampleRate attack release)

theorem after_ok {sr : ℝ} (hsr : 0 < sr) (a r : Nat) (as : List FollowerAction) : (after sr a r as).Ok := by
  unfold after
  have : ∀ (as : List FollowerAction) (e : Follower), e.Ok → (as.foldl act e).Ok := by
    intro as
    induction as with
    | nil => intro e h; exact h
    | cons x as ih =>
      intro e h
      apply ih
      cases x with
      | attack t => exact (h.setAttack t).1
      | release t => exact (h.setRelease t).1
      | sample x => exact h.process x
  exact this as _ (new_ok hsr a r)

/-- C49: after every history the level is not negative and not above the loudest sample so far. -/
theorem C49_bounds (sr : ℝ) (hsr : 0 < sr) (a r : Nat) (as : List FollowerAction) (loudest : ℝ)
    (h0 : 0 ≤ loudest) (hl : ∀ x, .sample x ∈ as → |x| ≤ loudest) :
    0 ≤ (after sr a r as).level ∧ (after sr a r as).level ≤ loudest := by
  refine ⟨(after_ok hsr a r as).level, ?_⟩
  unfold after
  have : ∀ (as : List FollowerAction), (∀ x, .sample x ∈ as → |x| ≤ loudest) → ∀ (e : Follower), e.Ok →
      e.level ≤ loudest → (as.foldl act e).level ≤ loudest := by
    intro as
    induction as with
    | nil => intro _ e _ h; exact h
    | cons x as ih =>
      intro hl e h he
      have hl' : ∀ x, .sample x ∈ as → |x| ≤ loudest := fun x hx => hl x (List.mem_cons_of_mem _ hx)
      rw [List.foldl_cons]
      cases x with
      | attack t => exact ih hl' _ (h.setAttack t).1 (by show (e.setAttackTime t).level ≤ _; rw [(h.setAttack t).2]; exact he)
      | release t => exact ih hl' _ (h.setRelease t).1 (by show (e.setReleaseTime t).level ≤ _; rw [(h.setRelease t).2]; exact he)
      | sample x =>
        refine ih hl' _ (h.process x) ?_
        exact le_trans (h.step x).2 (max_le he (hl x List.mem_cons_self))
  exact this as hl _ (new_ok hsr a r) h0

example : 0 ≤ (after 48000 1000 1000 [.sample (-1), .attack 0, .sample (1 / 2)]).level ∧
    (after 48000 1000 1000 [.sample (-1), .attack 0, .sample (1 / 2)]).level ≤ 1 := by
  apply C49_bounds _ (by norm_num) _ _ _ _ (by norm_num)
  intro x hx
  simp only [List.mem_cons, FollowerAction.sample.injEq, reduceCtorEq, List.not_mem_nil, or_false, false_or] at hx
  rcases hx with rfl | rfl <;> norm_num [abs_of_pos]

/-- C49: after every history each sample moves the level towards its absolute value, strictly unless it is
there already, and never past it. -/
theorem C49_no_overshoot (sr : ℝ) (hsr : 0 < sr) (a r : Nat) (as : List FollowerAction) (x : ℝ) :
    let level := (after sr a r as).level
    let next := ((after sr a r as).process x).2
    min level |x| ≤ next ∧ next ≤ max level |x| ∧ (level < |x| → level < next) ∧ (|x| < level → next < level) := by
  intro level next
  have h := after_ok hsr a r as
  refine ⟨(h.step x).1, (h.step x).2, ?_, ?_⟩
  · intro hl
    obtain ⟨c, hc, e1, _, _⟩ := process_eq (after sr a r as) x
    have hr : 0 ≤ c ∧ c < 1 := by
      rcases hc with rfl | rfl
      · exact h.coefficients.1
      · exact h.coefficients.2
    show level < next
    have : next = level * c + |x| * (1 - c) := e1
    rw [this]
    nlinarith [hr.1, hr.2]
  · intro hl
    obtain ⟨c, hc, e1, _, _⟩ := process_eq (after sr a r as) x
    have hr : 0 ≤ c ∧ c < 1 := by
      rcases hc with rfl | rfl
      · exact h.coefficients.1
      · exact h.coefficients.2
    show next < level
    have : next = level * c + |x| * (1 - c) := e1
    rw [this]
    nlinarith [hr.1, hr.2]

/-- A follower after `n` equal samples. -/
noncomputable def hold (e : Follower) (x : ℝ) : Nat → Follower
  | 0 => e
  | n + 1 => ((hold e x n).process x).1

theorem hold_fields (e : Follower) (x : ℝ) (n : Nat) : (hold e x n).attackCoefficient = e.attackCoefficient ∧
    (hold e x n).releaseCoefficient = e.releaseCoefficient := by
  induction n with
  | zero => exact ⟨rfl, rfl⟩
  | succ n ih => exact ih

/-- C49: under a constant louder input the distance shrinks by the attack coefficient each sample. -/
theorem hold_attack (e : Follower) (h : e.Ok) (x : ℝ) (hx : e.level < |x|) (n : Nat) :
    (hold e x n).level = |x| - (|x| - e.level) * e.attackCoefficient ^ n ∧
      (e.attackCoefficient ≠ 0 → (hold e x n).level < |x|) := by
  obtain ⟨⟨a0, a1⟩, _⟩ := h.coefficients
  induction n with
  | zero => simp [hold, hx]
  | succ n ih =>
    obtain ⟨e1, e2⟩ := ih
    have hf := hold_fields e x n
    have hle : (hold e x n).level ≤ |x| := by
      rw [e1]
      have : 0 ≤ e.attackCoefficient ^ n := pow_nonneg a0 n
      nlinarith
    have hlev : (hold e x (n + 1)).level = |x| - (|x| - e.level) * e.attackCoefficient ^ (n + 1) := by
      show ((hold e x n).process x).2 = _
      unfold process
      simp only
      by_cases hlt : (hold e x n).level < |x|
      · rw [if_pos hlt, hf.1, e1]
        ring
      · have heq : (hold e x n).level = |x| := le_antisymm hle (not_lt.mp hlt)
        rw [if_neg hlt, heq]
        have hz : (|x| - e.level) * e.attackCoefficient ^ n = 0 := by linarith
        rw [pow_succ, ← mul_assoc, hz]
        ring
    refine ⟨hlev, ?_⟩
    intro hne
    rw [hlev]
    have : 0 < e.attackCoefficient ^ (n + 1) := pow_pos (lt_of_le_of_ne a0 (Ne.symm hne)) _
    nlinarith

theorem hold_release (e : Follower) (h : e.Ok) (x : ℝ) (hx : |x| ≤ e.level) (n : Nat) :
    (hold e x n).level = |x| + (e.level - |x|) * e.releaseCoefficient ^ n := by
  obtain ⟨_, a0, a1⟩ := h.coefficients
  induction n with
  | zero => simp [hold]
  | succ n e1 =>
    have hf := hold_fields e x n
    have hle : ¬ (hold e x n).level < |x| := by
      rw [e1, not_lt]
      have : 0 ≤ e.releaseCoefficient ^ n := pow_nonneg a0 n
      nlinarith
    show ((hold e x n).process x).2 = _
    unfold process
    simp only
    rw [if_neg hle, hf.2, e1]
    ring

/-- C49: after every history a constant input is approached exponentially, from below with the coefficient of
the attack time and from above with that of the release time, and reached in the limit. -/
theorem C49_converges (sr : ℝ) (hsr : 0 < sr) (a r : Nat) (as : List FollowerAction) (x : ℝ) :
    let e := after sr a r as
    (∀ n, (hold e x n).level = |x| - (|x| - e.level) *
      (calculateCoefficient sr (if e.level < |x| then e.attackTime else e.releaseTime)) ^ n) ∧
    Tendsto (fun n => (hold e x n).level) atTop (𝓝 |x|) := by
  intro e
  have h : e.Ok := after_ok hsr a r as
  have hsr' : e.sampleRate = sr := by
    show (after sr a r as).sampleRate = sr
    unfold after
    have : ∀ (as : List FollowerAction) (e : Follower), (as.foldl act e).sampleRate = e.sampleRate := by
      intro as
      induction as with
      | nil => intro e; rfl
      | cons y as ih =>
        intro e
        rw [List.foldl_cons, ih]
        cases y with
        | attack t => show (e.setAttackTime t).sampleRate = _; unfold setAttackTime; split <;> rfl
        | release t => show (e.setReleaseTime t).sampleRate = _; unfold setReleaseTime; split <;> rfl
        | sample y => rfl
    rw [this]
    rfl
  have hn : ∀ n, (hold e x n).level = |x| - (|x| - e.level) *
      (calculateCoefficient sr (if e.level < |x| then e.attackTime else e.releaseTime)) ^ n := by
    intro n
    by_cases hx : e.level < |x|
    · rw [if_pos hx, (hold_attack e h x hx n).1, h.attack, hsr']
    · rw [if_neg hx, hold_release e h x (not_lt.mp hx) n, h.release, hsr']
      ring
  refine ⟨hn, ?_⟩
  obtain ⟨c0, c1⟩ := coefficient_range sr hsr (if e.level < |x| then e.attackTime else e.releaseTime)
  have ht := (tendsto_pow_atTop_nhds_zero_of_lt_one c0 c1).const_mul (|x| - e.level)
  have ht2 := ht.const_sub |x|
  rw [mul_zero, sub_zero] at ht2
  simpa only [hn] using ht2

/-- C49: the attack time is the time constant: from silence, after as many samples as the attack time lasts, a
constant input is reached up to a factor of 1/e. -/
theorem C49_time_constant (sr : ℝ) (hsr : 0 < sr) (attack release : Nat) (x : ℝ) (hx : x ≠ 0) (n : Nat)
    (ha : 0 < attack) (hn : (n : ℝ) = sr * (attack / 10 ^ 9)) :
    (hold (new sr attack release) x n).level = |x| * (1 - Real.exp (-1)) := by
  have h := (hold_attack (new sr attack release) (new_ok hsr _ _) x (abs_pos.mpr hx) n).1
  rw [h]
  have ht : 0 < sr * ((attack : ℝ) / 10 ^ 9) := by positivity
  have hc : (new sr attack release).attackCoefficient ^ n = Real.exp (-1) := by
    show calculateCoefficient sr attack ^ n = _
    unfold calculateCoefficient
    rw [if_neg ht.ne', ← Real.exp_nat_mul, hn]
    congr 1
    field_simp
  rw [hc]
  show |x| - (|x| - 0) * _ = _
  ring

example : (hold (new 1000 2000000000 0) 3 2000).level = |3| * (1 - Real.exp (-1)) :=
  C49_time_constant 1000 (by norm_num) _ 0 3 (by norm_num) 2000 (by norm_num) (by norm_num)

end Follower

namespace Periodic

/-- The notifications of a series of advances. -/
def advances (p : Periodic) (fuel : Nat) : List Nat → Res (Periodic × List Bool)
  | [] => .ok (p, [])
  | n :: ns => do
    let (p, b) ← p.advance fuel n
    let (p, bs) ← advances p fuel ns
    .ok (p, b :: bs)

open Classical in
/-- When notifications are due: those advances in which the total reaches or passes a multiple of the
interval. -/
noncomputable def due (interval : ℚ) (total : Nat) : List Nat → List Bool
  | [] => []
  | n :: ns => decide (∃ k : Nat, (total : ℚ) < (k + 1) * interval ∧ (k + 1) * interval ≤ (total + n : Nat)) ::
      due interval (total + n) ns

theorem crossed_iff {I : ℚ} (hI : 0 < I) (s n : Nat) :
    (⌊(s : ℚ) / I⌋ < ⌊((s + n : Nat) : ℚ) / I⌋) ↔
      ∃ k : Nat, (s : ℚ) < (k + 1) * I ∧ (k + 1) * I ≤ (s + n : Nat) := by
  have hs : 0 ≤ ⌊(s : ℚ) / I⌋ := Int.floor_nonneg.mpr (by positivity)
  constructor
  · intro h
    refine ⟨⌊(s : ℚ) / I⌋.toNat, ?_, ?_⟩
    · have := Int.lt_floor_add_one ((s : ℚ) / I)
      rw [div_lt_iff₀ hI] at this
      have hc : ((⌊(s : ℚ) / I⌋.toNat : Nat) : ℚ) = ⌊(s : ℚ) / I⌋ := by exact_mod_cast Int.toNat_of_nonneg hs
      rw [hc]
      exact this
    · have hc : ((⌊(s : ℚ) / I⌋.toNat : Nat) : ℚ) = ⌊(s : ℚ) / I⌋ := by exact_mod_cast Int.toNat_of_nonneg hs
      rw [hc, ← le_div_iff₀ hI]
      have := Int.le_floor.mp (show ⌊(s : ℚ) / I⌋ + 1 ≤ ⌊((s + n : Nat) : ℚ) / I⌋ by omega)
      push_cast at this ⊢
      exact this
  · rintro ⟨k, h1, h2⟩
    rw [← div_lt_iff₀ hI] at h1
    rw [← le_div_iff₀ hI] at h2
    have a1 : ⌊(s : ℚ) / I⌋ < (k : Int) + 1 := Int.floor_lt.mpr (by push_cast; exact h1)
    have a2 : (k : Int) + 1 ≤ ⌊((s + n : Nat) : ℚ) / I⌋ := Int.le_floor.mpr (by push_cast; push_cast at h2; exact h2)
    omega

/-- C50: in every series of advances the notifications come exactly with the advances in which the running
total reaches or passes a multiple of the interval, and the samples to the next one are counted exactly:
the error does not grow. -/
theorem C50_no_drift (sr : Nat) (hsr : 0 < sr) (f : ℚ) (hf : 0 < f) (fuel : Nat) (ns : List Nat)
    (hfuel : ∀ n ∈ ns, (n : ℚ) / (sr / f) + 1 < fuel) :
    ∃ p p' bs, new sr f = .ok p ∧ p.advances fuel ns = .ok (p', bs) ∧ bs = due (sr / f) 0 ns ∧
      (∃ k : Nat, p'.nextNotification = (k + 1) * (sr / f) - ns.sum) ∧
      0 < p'.nextNotification ∧ p'.nextNotification ≤ sr / f := by
  obtain ⟨p, e1, e2⟩ := new_at hsr hf
  have key : ∀ (ns : List Nat) (p : Periodic) (s : Nat), p.At (sr / f) s → (∀ n ∈ ns, (n : ℚ) / (sr / f) + 1 < fuel) →
      ∃ p', p.advances fuel ns = .ok (p', due (sr / f) s ns) ∧ p'.At (sr / f) (s + ns.sum) := by
    intro ns
    induction ns with
    | nil => intro p s h _; exact ⟨p, rfl, by simpa using h⟩
    | cons n ns ih =>
      intro p s h hfu
      obtain ⟨p1, b, d1, d2, d3⟩ := h.advance n fuel (hfu n List.mem_cons_self)
      obtain ⟨p2, c1, c2⟩ := ih p1 _ d2 (fun m hm => hfu m (List.mem_cons_of_mem _ hm))
      refine ⟨p2, ?_, ?_⟩
      · unfold advances due
        simp only [d1, c1, bind, Except.bind]
        congr 3
        rw [Bool.eq_iff_iff, d3, crossed_iff h.pos]
        classical exact decide_eq_true_iff.symm
      · rw [List.sum_cons, ← add_assoc]
        exact c2
  obtain ⟨p', d1, d2⟩ := key ns p 0 e2 hfuel
  refine ⟨p, p', _, e1, d1, rfl, ⟨⌊((0 + ns.sum : Nat) : ℚ) / (sr / f)⌋.toNat, ?_⟩, d2.range⟩
  rw [d2.next]
  have hs : 0 ≤ ⌊((0 + ns.sum : Nat) : ℚ) / (sr / f)⌋ := Int.floor_nonneg.mpr (by have := d2.pos; positivity)
  have hc : ((⌊((0 + ns.sum : Nat) : ℚ) / (sr / f)⌋.toNat : Nat) : ℚ) = ⌊((0 + ns.sum : Nat) : ℚ) / (sr / f)⌋ := by
    exact_mod_cast Int.toNat_of_nonneg hs
  rw [hc, mul_comm]
  simp

example : ∃ p p' bs, new 48000 10 = .ok p ∧ p.advances 10 [4000, 4000, 20000] = .ok (p', bs) ∧
    bs = [false, true, true] := by
  obtain ⟨p, p', bs, e1, e2, e3, _⟩ := C50_no_drift 48000 (by omega) 10 (by norm_num) 10 [4000, 4000, 20000]
    (by intro n hn
        simp only [List.mem_cons, List.not_mem_nil, or_false] at hn
        rcases hn with rfl | rfl | rfl <;> norm_num)
  refine ⟨p, p', bs, e1, e2, ?_⟩
  rw [e3]
  simp only [due, List.cons.injEq, decide_eq_true_eq, decide_eq_false_iff_not, and_true]
  refine ⟨?_, ⟨0, by norm_num, by norm_num⟩, ⟨1, by norm_num, by norm_num⟩⟩
  rintro ⟨k, _, h⟩
  norm_num at h
  have : (0 : ℚ) ≤ k := Nat.cast_nonneg k
  linarith

end Periodic
end Rawdio
