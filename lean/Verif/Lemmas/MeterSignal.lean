import Verif.Lemmas.MeterNode

/-! Helper lemmas: which frames a meter looks at, and what its reports say about them. -/

namespace Rawdio

open Processor Network

/-! ## Blocks -/

theorem mem_callBlocks {full first n : Nat} {b : Nat × Nat} (hf : 0 < full) (h : b ∈ callBlocks full first n) :
    0 < b.2 ∧ b.2 ≤ full ∧ ∀ q, q ∣ full → q ∣ first → q ∣ n → q ∣ b.1 ∧ q ∣ b.2 := by
  rw [callBlocks, List.mem_append] at h
  rcases h with h | h
  · obtain ⟨j, _, rfl⟩ := List.mem_map.mp h
    exact ⟨hf, le_refl _, fun q h1 h2 _ => ⟨Nat.dvd_add h2 (Dvd.dvd.mul_left h1 j), h1⟩⟩
  · split at h
    · cases h
    · rename_i h0
      rw [List.mem_singleton] at h
      subst h
      exact ⟨by omega, (Nat.mod_lt _ hf).le, fun q h1 h2 h3 =>
        ⟨Nat.dvd_add h2 (Dvd.dvd.mul_left h1 _), (Nat.dvd_mod_iff h1).mpr h3⟩⟩

theorem mem_blocksFrom {full : Nat} (hf : 0 < full) {ns : List Nat} : ∀ {first : Nat} {b : Nat × Nat},
    b ∈ blocksFrom full first ns → 0 < b.2 ∧ b.2 ≤ full ∧
      ∀ q, q ∣ full → q ∣ first → (∀ n ∈ ns, q ∣ n) → q ∣ b.1 ∧ q ∣ b.2 := by
  induction ns with
  | nil => intro first b h; cases h
  | cons n ns ih =>
    intro first b h
    rw [blocksFrom, List.mem_append] at h
    rcases h with h | h
    · obtain ⟨h1, h2, h3⟩ := mem_callBlocks hf h
      exact ⟨h1, h2, fun q q1 q2 q3 => h3 q q1 q2 (q3 n (by simp))⟩
    · obtain ⟨h1, h2, h3⟩ := ih h
      exact ⟨h1, h2, fun q q1 q2 q3 => h3 q q1 (Nat.dvd_add q2 (q3 n (by simp))) fun k hk => q3 k (by simp [hk])⟩

theorem full_frames (full first : Nat) : ∀ q,
    ((List.range q).map fun j => (first + j * full, full)).flatMap (fun b : Nat × Nat => List.range' b.1 b.2) =
      List.range' first (q * full) := by
  intro q
  induction q with
  | zero => simp
  | succ q ih =>
    rw [List.range_succ, List.map_append, List.flatMap_append, ih, Nat.succ_mul, ← List.range'_append_1]
    simp

theorem call_frames (full first n : Nat) :
    (callBlocks full first n).flatMap (fun b => List.range' b.1 b.2) = List.range' first n := by
  rw [callBlocks, List.flatMap_append, full_frames]
  have hdm := Nat.div_add_mod' n full
  split
  · rename_i h0
    rw [h0, Nat.add_zero] at hdm
    rw [hdm]
    simp
  · conv_rhs => rw [← hdm]
    rw [← List.range'_append_1]
    simp

theorem blocks_frames (full : Nat) (ns : List Nat) : ∀ first,
    (blocksFrom full first ns).flatMap (fun b => List.range' b.1 b.2) = List.range' first ns.sum := by
  induction ns with
  | nil => intro first; rfl
  | cons n ns ih =>
    intro first
    rw [blocksFrom, List.flatMap_append, call_frames, ih, List.sum_cons, List.range'_append_1]

theorem session_frames {S P C : Type} (full : Nat) (ks : List (Call S P C)) :
    (sessionBlocks full ks).flatMap (fun b => List.range' b.1 b.2) = List.range (framesIn ks) := by
  rw [sessionBlocks, blocks_frames, List.range_eq_range']
  rfl

open Classical in
theorem inspected_sublist (I : ℚ) (bs : List (Nat × Nat)) :
    (inspectedFrames I bs).Sublist (bs.flatMap fun b => List.range' b.1 b.2) := by
  induction bs with
  | nil => exact List.Sublist.refl _
  | cons b bs ih =>
    rw [inspectedFrames, List.flatMap_cons, List.flatMap_cons]
    exact List.Sublist.append List.filter_sublist ih

open Classical in
theorem inspected_all (I : ℚ) (bs : List (Nat × Nat)) (h : ∀ b ∈ bs, ∀ k : Nat,
    ¬ ((b.1 : ℚ) < k * I ∧ k * I < (b.1 + b.2 : Nat))) :
    inspectedFrames I bs = bs.flatMap fun b => List.range' b.1 b.2 := by
  rw [inspectedFrames, List.flatMap_def, List.flatMap_def]
  congr 1
  apply List.map_congr_left
  intro b hb
  rw [List.filter_eq_self]
  intro F hF
  have := List.mem_range'_1.mp hF
  rw [decide_eq_true_eq]
  rintro ⟨k, h1, h2⟩
  refine h b hb k ⟨h1, lt_of_le_of_lt h2 ?_⟩
  exact_mod_cast this.2

/-! ## Reports -/

theorem cover {F t : Nat} {ts : List Nat} (ht : t ∈ ts) (hF : F < t) : ∀ {a : Nat}, a ≤ F →
    ∃ p ∈ (a :: ts).zip ts, p.1 ≤ F ∧ F < p.2 := by
  induction ts with
  | nil => cases ht
  | cons u ts ih =>
    intro a ha
    by_cases hu : F < u
    · exact ⟨(a, u), by simp, ha, hu⟩
    · rcases List.mem_cons.mp ht with rfl | ht
      · exact absurd hF hu
      · obtain ⟨p, p1, p2⟩ := ih ht (show u ≤ F by omega)
        exact ⟨p, by rw [List.zip_cons_cons]; exact List.mem_cons_of_mem _ p1, p2⟩

theorem le_peakOf (vs : List ℝ) : ∀ (p : ℝ), p ≤ peakOf p vs ∧ ∀ v ∈ vs, v ≤ peakOf p vs := by
  induction vs with
  | nil => intro p; exact ⟨le_refl _, by simp⟩
  | cons v vs ih =>
    intro p
    obtain ⟨h1, h2⟩ := ih (max p v)
    refine ⟨(le_max_left _ _).trans h1, ?_⟩
    intro w hw
    rcases List.mem_cons.mp hw with rfl | hw
    · exact (le_max_right _ _).trans h1
    · exact h2 w hw

theorem peakOf_le {M : ℝ} (vs : List ℝ) : ∀ (p : ℝ), p ≤ M → (∀ v ∈ vs, v ≤ M) → peakOf p vs ≤ M := by
  induction vs with
  | nil => intro p hp _; exact hp
  | cons v vs ih =>
    intro p hp h
    exact ih _ (max_le hp (h v (by simp))) fun w hw => h w (by simp [hw])

namespace Follower

theorem run_okay (xs : List ℝ) : ∀ {v : Follower}, v.Ok → (v.run xs).Ok ∧
    (v.run xs).attackCoefficient = v.attackCoefficient := by
  induction xs with
  | nil => intro v h; exact ⟨h, rfl⟩
  | cons x xs ih =>
    intro v h
    obtain ⟨h1, h2⟩ := ih (h.process x)
    refine ⟨h1, h2.trans ?_⟩
    obtain ⟨_, _, _, _, e⟩ := process_eq v x
    rw [e]

theorem run_le {M : ℝ} (xs : List ℝ) : ∀ {v : Follower}, v.Ok → v.level ≤ M → (∀ x ∈ xs, |x| ≤ M) →
    (v.run xs).level ≤ M := by
  induction xs with
  | nil => intro v _ h _; exact h
  | cons x xs ih =>
    intro v hv h hx
    refine ih (v := (v.process x).1) (hv.process x) ?_ fun y hy => hx y (by simp [hy])
    obtain ⟨_, _, _, e, _⟩ := process_eq v x
    rw [e]
    exact (hv.step x).2.trans (max_le h (hx x (by simp)))

theorem instant {v : Follower} (hv : v.Ok) (ha : v.attackCoefficient = 0) (x : ℝ) : |x| ≤ (v.process x).1.level := by
  by_cases h : v.level < |x|
  · unfold process
    simp only [if_pos h, ha]
    linarith
  · obtain ⟨_, _, _, e, _⟩ := process_eq v x
    rw [e]
    refine le_trans ?_ (hv.step x).1
    exact le_min (not_lt.mp h) (le_refl _)

end Follower

namespace MeterKind

variable (m : MeterKind) {sr : Nat}

theorem level_nonneg (hsr : 0 < sr) (frames : List Nat) (y : Nat → ℝ) (F : Nat) : 0 ≤ m.level sr frames y F :=
  (Follower.run_okay _ (Follower.new_ok (by exact_mod_cast hsr) _ _)).1.level

theorem level_le (hsr : 0 < sr) {frames : List Nat} {y : Nat → ℝ} {M : ℝ} (hM : 0 ≤ M) {F : Nat}
    (h : ∀ G ∈ frames, G ≤ F → |y G| ≤ M) : m.level sr frames y F ≤ M := by
  refine Follower.run_le _ (Follower.new_ok (by exact_mod_cast hsr) _ _) hM ?_
  intro x hx
  obtain ⟨G, hG, rfl⟩ := List.mem_map.mp hx
  obtain ⟨h1, h2⟩ := List.mem_filter.mp hG
  exact h G h1 (by simpa using h2)

theorem le_level (hsr : 0 < sr) (ha : m.attackTime = 0) {frames : List Nat} (hs : frames.Pairwise (· < ·))
    (y : Nat → ℝ) {F : Nat} (hF : F ∈ frames) : |y F| ≤ m.level sr frames y F := by
  obtain ⟨as, bs, rfl⟩ := List.append_of_mem hF
  have e : (as ++ F :: bs).filter (· ≤ F) = as ++ [F] := by
    rw [List.pairwise_append] at hs
    obtain ⟨_, h2, h3⟩ := hs
    rw [List.filter_append, List.filter_cons_of_pos (by simp)]
    rw [List.filter_eq_self.mpr fun G hG => by have := h3 G hG F (by simp); simp; omega]
    rw [List.filter_eq_nil_iff.mpr fun G hG => by have := List.rel_of_pairwise_cons h2 hG; simp; omega]
  rw [level, e, List.map_append, Follower.run_append]
  obtain ⟨h1, h2⟩ := Follower.run_okay (as.map y) (Follower.new_ok (sr := (sr : ℝ)) (by exact_mod_cast hsr) m.attackTime m.releaseTime)
  refine Follower.instant h1 (h2.trans ?_) (y F)
  rw [ha]
  simp [Follower.new, Follower.calculateCoefficient]

theorem peak_congr {frames : List Nat} {y y' : Nat → ℝ} (h : ∀ F ∈ frames, y F = y' F) (a b : Nat) :
    m.peak sr frames y a b = m.peak sr frames y' a b := by
  have hl : ∀ F, m.level sr frames y F = m.level sr frames y' F := by
    intro F
    rw [level, level, List.map_congr_left fun G hG => h G (List.mem_filter.mp hG).1]
  rw [peak, peak, List.map_congr_left fun G _ => hl G]

theorem reports_congr (bs : List (Nat × Nat)) {x x' : Nat → Nat → ℝ}
    (h : ∀ c, ∀ F ∈ inspectedFrames (m.interval sr) bs, x c F = x' c F) : m.reports sr bs x = m.reports sr bs x' := by
  rw [reports, reports, List.flatMap_def, List.flatMap_def]
  congr 1
  apply List.map_congr_left
  intro p _
  apply List.map_congr_left
  intro c _
  rw [m.peak_congr (h c)]

end MeterKind
end Rawdio
