import Verif.Lemmas.FollowerFloat2
import Verif.Props.Follower
import Verif.Spec.PeriodicFloat

/-! Helper lemmas about periodic notifications in the arithmetic of `f64`. -/

namespace Rawdio
namespace Periodic

open Float32 (grid_near round64_eq round64_neg round64_zero)

theorem round_nonpos {x : ℚ} (h : x ≤ 0) : Float64.round x ≤ 0 := by
  have := Float64.round_nonneg (x := -x) (by linarith)
  rw [round64_neg] at this
  linarith

theorem rep_nat {n : Nat} (h : n < 2 ^ 53) : Float64.Rep n := by
  have := Float64.rep_int n (by rw [abs_of_nonneg (by positivity)]; exact_mod_cast h)
  exact_mod_cast this

/-- Whole numbers are not rounded. -/
theorem catchUp_whole {M : Int} (hM : 0 < M) (hM2 : M ≤ 2 ^ 52) : ∀ (fuel : Nat) (x : Int), -2 ^ 52 ≤ x → x ≤ 2 ^ 52 →
    catchUpFloat M fuel x = catchUp M fuel x ∧ ∀ y, catchUp M fuel x = .ok y → ∃ z : Int, y = z ∧ 0 < z ∧ z ≤ 2 ^ 52
  | 0, _, _, _ => ⟨rfl, fun y hy => by cases hy⟩
  | fuel + 1, x, h1, h2 => by
    unfold catchUpFloat catchUp
    by_cases hx : (x : ℚ) ≤ 0
    · have hx' : x ≤ 0 := by exact_mod_cast hx
      have e : Float64.round ((x : ℚ) + M) = ((x + M : Int) : ℚ) := by
        rw [show (x : ℚ) + M = ((x + M : Int) : ℚ) by push_cast; ring]
        exact Float64.round_of_rep (Float64.rep_int _ (by rw [abs_lt]; constructor <;> omega))
      rw [if_pos hx, if_pos hx, e]
      have := catchUp_whole hM hM2 fuel (x + M) (by omega) (by omega)
      push_cast at this ⊢
      exact this
    · rw [if_neg hx, if_neg hx]
      refine ⟨rfl, fun y hy => ?_⟩
      cases hy
      exact ⟨x, rfl, by exact_mod_cast not_le.mp hx, h2⟩

theorem advance_whole {M x : Int} (hM : 0 < M) (hM2 : M ≤ 2 ^ 52) (hx : 0 < x) (hx2 : x ≤ 2 ^ 52) (fuel n : Nat) (hn : n ≤ 2 ^ 52) :
    advanceFloat ⟨M, x⟩ fuel n = advance ⟨M, x⟩ fuel n ∧
    ∀ p b, advance ⟨M, x⟩ fuel n = .ok (p, b) → ∃ z : Int, p = ⟨M, z⟩ ∧ 0 < z ∧ z ≤ 2 ^ 52 := by
  have hn' : (n : Int) ≤ 2 ^ 52 := by exact_mod_cast hn
  have e0 : (x : ℚ) - (n : ℚ) = ((x - n : Int) : ℚ) := by push_cast; ring
  have e : Float64.round ((x - n : Int) : ℚ) = ((x - n : Int) : ℚ) :=
     Float64.round_of_rep (Float64.rep_int _ (by rw [abs_lt]; constructor <;> omega))
  obtain ⟨c1, c2⟩ := catchUp_whole hM hM2 fuel (x - n) (by omega) (by omega)
  unfold advanceFloat advance
  simp only [e0, e]
  rw [c1]
  refine ⟨rfl, fun p b h => ?_⟩
  cases hc : catchUp (M : ℚ) fuel ((x - n : Int) : ℚ) with
  | error f => rw [hc] at h; cases h
  | ok y =>
    obtain ⟨z, z1, z2, z3⟩ := c2 y hc
    rw [hc] at h
    cases h
    exact ⟨z, by rw [z1], z2, z3⟩

theorem advances_whole {M : Int} (hM : 0 < M) (hM2 : M ≤ 2 ^ 52) (fuel : Nat) : ∀ (ns : List Nat) (x : Int), 0 < x → x ≤ 2 ^ 52 →
    (∀ n ∈ ns, n ≤ 2 ^ 52) → advancesFloat ⟨M, x⟩ fuel ns = advances ⟨M, x⟩ fuel ns
  | [], _, _, _, _ => rfl
  | n :: ns, x, h1, h2, hn => by
    obtain ⟨a1, a2⟩ := advance_whole hM hM2 h1 h2 fuel n (hn n List.mem_cons_self)
    unfold advancesFloat advances
    rw [a1]
    cases hc : advance ⟨M, x⟩ fuel n with
    | error f => rfl
    | ok r =>
      obtain ⟨p, b⟩ := r
      obtain ⟨z, rfl, z1, z2⟩ := a2 p b hc
      simp only [bind, Except.bind]
      rw [advances_whole hM hM2 fuel ns z z1 z2 fun m hm => hn m (List.mem_cons_of_mem _ hm)]

/-- The error after a number of advances. -/
structure Near (I : ℚ) (S N k : Nat) (p : Periodic) : Prop where
  interval : p.notificationInterval = I
  range : 0 < p.nextNotification ∧ p.nextNotification ≤ I
  near : |p.nextNotification - ((k + 1) * I - S)| ≤ N * (I * (1 / 2 ^ 51))

theorem round_le_rel {x I : ℚ} (hI : 1 ≤ I) (h : |x| ≤ I) : |Float64.round x - x| ≤ I * (1 / 2 ^ 52) := by
  have small : (1 : ℚ) / 2 ^ 1075 ≤ 1 / 2 ^ 53 := one_div_le_one_div_of_le (by positivity) (pow_le_pow_right₀ (by norm_num) (by norm_num))
  have := Float64.round_rel x
  generalize (1 : ℚ) / 2 ^ 1075 = τ at *
  linarith

theorem near_advance {I : ℚ} {S N k B : Nat} {p : Periodic} (h : Near I S N k p) (hrep : Float64.Rep I) (hB : (B : ℚ) + 1 ≤ I)
    (hB2 : B < 2 ^ 53) {n : Nat} (hn : n ≤ B) (fuel : Nat) (hf : 2 ≤ fuel) :
    ∃ p' b, p.advanceFloat fuel n = .ok (p', b) ∧ Near I (S + n) (N + 1) (k + if b then 1 else 0) p' := by
  obtain ⟨h1, ⟨h2, h3⟩, h4⟩ := h
  obtain ⟨g, rfl⟩ : ∃ g, fuel = g + 2 := ⟨fuel - 2, by omega⟩
  have hnB : (n : ℚ) ≤ B := by exact_mod_cast hn
  have hn0 : (0 : ℚ) ≤ n := Nat.cast_nonneg n
  have hI : 1 ≤ I := by
    have : (0 : ℚ) ≤ B := Nat.cast_nonneg B
    linarith
  have h4' := abs_le.mp h4
  have ea := abs_le.mp (round_le_rel (x := p.nextNotification - n) hI (by rw [abs_le]; constructor <;> linarith))
  have elo : -(B : ℚ) ≤ Float64.round (p.nextNotification - n) := by
    rcases le_total 0 (p.nextNotification - n) with hh | hh
    · have := Float64.round_nonneg hh
      have : (0 : ℚ) ≤ B := Nat.cast_nonneg B
      linarith
    · have := Float64.round_le (x := -(p.nextNotification - n)) (by linarith) (rep_nat hB2) (by linarith)
      rw [round64_neg] at this
      linarith
  have ehi : Float64.round (p.nextNotification - n) ≤ I := by
    rcases le_total 0 (p.nextNotification - n) with hh | hh
    · exact Float64.round_le hh hrep (by linarith)
    · have := round_nonpos hh
      linarith
  unfold advanceFloat
  rw [h1]
  generalize Float64.round (p.nextNotification - n) = a at *
  by_cases ha : a ≤ 0
  · have eb := abs_le.mp (round_le_rel (x := a + I) hI (by rw [abs_le]; constructor <;> linarith))
    have b1 : 1 ≤ Float64.round (a + I) := by
      have r1 : Float64.Rep 1 := by
        have := rep_nat (n := 1) (by norm_num)
        exact_mod_cast this
      exact Float64.le_round zero_le_one r1 (by linarith)
    have b2 : Float64.round (a + I) ≤ I := Float64.round_le (by linarith) hrep (by linarith)
    refine ⟨⟨I, Float64.round (a + I)⟩, true, ?_, rfl, ⟨by dsimp only; linarith, b2⟩, ?_⟩
    · simp only [catchUpFloat, if_pos ha, if_neg (show ¬ Float64.round (a + I) ≤ 0 by linarith), bind, Except.bind, decide_eq_true ha]
    · dsimp only
      rw [if_pos rfl]
      push_cast
      rw [abs_le]
      constructor <;> linarith
  · refine ⟨⟨I, a⟩, false, ?_, rfl, ⟨not_le.mp ha, ehi⟩, ?_⟩
    · simp only [catchUpFloat, if_neg ha, bind, Except.bind, decide_eq_false ha]
    · dsimp only
      rw [if_neg (by simp)]
      push_cast
      rw [add_zero, abs_le]
      constructor <;> linarith

theorem near_advances {I : ℚ} {B : Nat} (hrep : Float64.Rep I) (hB : (B : ℚ) + 1 ≤ I) (hB2 : B < 2 ^ 53) (fuel : Nat) (hf : 2 ≤ fuel) :
    ∀ (ns : List Nat) {S N k : Nat} {p : Periodic}, Near I S N k p → (∀ n ∈ ns, n ≤ B) →
    ∃ p' bs, p.advancesFloat fuel ns = .ok (p', bs) ∧ Near I (S + ns.sum) (N + ns.length) (k + bs.count true) p'
  | [], _, _, _, p, h, _ => ⟨p, [], rfl, by simpa using h⟩
  | n :: ns, S, N, k, p, h, hn => by
    obtain ⟨p1, b, c1, c2⟩ := near_advance h hrep hB hB2 (hn n List.mem_cons_self) fuel hf
    obtain ⟨p2, bs, d1, d2⟩ := near_advances hrep hB hB2 fuel hf ns c2 fun m hm => hn m (List.mem_cons_of_mem _ hm)
    refine ⟨p2, b :: bs, ?_, ?_⟩
    · unfold advancesFloat
      simp only [c1, d1, bind, Except.bind]
    · have e1 : S + (n :: ns).sum = S + n + ns.sum := by rw [List.sum_cons]; omega
      have e2 : N + (n :: ns).length = N + 1 + ns.length := by rw [List.length_cons]; omega
      have e3 : k + (b :: bs).count true = k + (if b then 1 else 0) + bs.count true := by
        rw [List.count_cons]
        cases b <;> simp <;> omega
      rw [e1, e2, e3]
      exact d2

/-- A round of the loop gains at least half an interval. -/
theorem catchUp_ends {I : ℚ} {B : Nat} (hI : 0 < I) (hrep : Float64.Rep I) (hB : (B : ℚ) * (1 / 2 ^ 51) ≤ I) (hs : 1 / 2 ^ 900 ≤ I) :
    ∀ (fuel : Nat) (x : ℚ), -x ≤ B → x ≤ I → -x < fuel * (I / 2) →
    ∃ y, catchUpFloat I (fuel + 1) x = .ok y ∧ 0 < y ∧ y ≤ I
  | 0, x, _, h2, h3 => by
    have hx : ¬ x ≤ 0 := by
      push_cast at h3
      intro hh
      linarith
    exact ⟨x, by rw [catchUpFloat, if_neg hx], not_le.mp hx, h2⟩
  | fuel + 1, x, h1, h2, h3 => by
    by_cases hx : x ≤ 0
    · rw [catchUpFloat, if_pos hx]
      have small : (1 : ℚ) / 2 ^ 1075 ≤ 1 / 2 ^ 900 * (1 / 8) := by
        have e : (1 : ℚ) / 2 ^ 1075 = 1 / 2 ^ 900 * (1 / 2 ^ 175) := by rw [div_mul_div_comm, ← pow_add]; norm_num
        rw [e]
        exact mul_le_mul_of_nonneg_left (by norm_num) (by positivity)
      have hr := Float64.round_rel (x + I)
      have hlo : x + I / 2 ≤ Float64.round (x + I) := by
        have hb : |x + I| ≤ B + I := by
          have : (0 : ℚ) ≤ B := Nat.cast_nonneg B
          rw [abs_le]
          constructor <;> linarith
        generalize (1 : ℚ) / 2 ^ 1075 = τ at *
        generalize (1 : ℚ) / 2 ^ 900 = σ at *
        have := (abs_le.mp hr).1
        have h5 : |x + I| * (1 / 2 ^ 53) ≤ (B + I) * (1 / 2 ^ 53) := mul_le_mul_of_nonneg_right hb (by norm_num)
        linarith
      have hhi : Float64.round (x + I) ≤ I := by
        rcases le_total 0 (x + I) with hh | hh
        · exact Float64.round_le hh hrep (by linarith)
        · have := round_nonpos hh
          linarith
      exact catchUp_ends hI hrep hB hs fuel _ (by linarith) hhi (by push_cast at h3; linarith)
    · exact ⟨x, by rw [catchUpFloat, if_neg hx], not_le.mp hx, h2⟩

/-- A block of 512 frames less a small part of an interval. -/
theorem round_stuck {x : ℚ} (h0 : 0 ≤ x) (h : x ≤ 1 / 2 ^ 46) : Float64.round (512 - x) = 512 := by
  rcases h0.eq_or_lt with rfl | h0
  · rw [sub_zero]
    exact Float64.round_of_rep (by have := rep_nat (n := 512) (by norm_num); exact_mod_cast this)
  · rw [round64_eq (e := 8) (by norm_num) (by norm_num; linarith) (by norm_num; linarith),
      grid_near (by norm_num) (512 * 2 ^ 44) (by
        rw [abs_lt]
        norm_num
        norm_num at h
        constructor <;> linarith)]
    norm_num

end Periodic
end Rawdio
