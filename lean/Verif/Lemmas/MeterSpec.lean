import Verif.Lemmas.Envelope
import Verif.Props.Follower
import Verif.Spec.MeterNode

/-! Helper lemmas: what a meter reports, block after block. -/

namespace Rawdio

theorem due_iff {I : ℚ} (hI : 0 < I) (a b : Nat) :
    DueWithin I a b ↔ ⌊(a : ℚ) / I⌋ < ⌊(b : ℚ) / I⌋ := by
  constructor
  · rintro ⟨k, h1, h2⟩
    have e1 : ⌊(a : ℚ) / I⌋ < (k : ℤ) := by
      rw [Int.floor_lt, div_lt_iff₀ hI]
      exact_mod_cast h1
    have e2 : (k : ℤ) ≤ ⌊(b : ℚ) / I⌋ := by
      rw [Int.le_floor, le_div_iff₀ hI]
      exact_mod_cast h2
    omega
  · intro h
    have h0 : (0 : ℤ) ≤ ⌊(b : ℚ) / I⌋ := Int.floor_nonneg.mpr (by positivity)
    refine ⟨⌊(b : ℚ) / I⌋.toNat, ?_, ?_⟩
    · rw [← div_lt_iff₀ hI]
      have : (((⌊(b : ℚ) / I⌋.toNat : Nat) : ℤ) : ℚ) = (⌊(b : ℚ) / I⌋ : ℚ) := by rw [Int.toNat_of_nonneg h0]
      have e : ((⌊(b : ℚ) / I⌋.toNat : Nat) : ℚ) = (⌊(b : ℚ) / I⌋ : ℚ) := by exact_mod_cast this
      rw [e]
      exact Int.floor_lt.mp h
    · rw [← le_div_iff₀ hI]
      have : (((⌊(b : ℚ) / I⌋.toNat : Nat) : ℤ) : ℚ) = (⌊(b : ℚ) / I⌋ : ℚ) := by rw [Int.toNat_of_nonneg h0]
      have e : ((⌊(b : ℚ) / I⌋.toNat : Nat) : ℚ) = (⌊(b : ℚ) / I⌋ : ℚ) := by exact_mod_cast this
      rw [e]
      exact Int.floor_le _

theorem until_iff {p : Periodic} {I : ℚ} {T : Nat} (h : p.At I T) (f : Nat) :
    f < p.samplesUntilNextNotification ↔ ¬ DueWithin I T (T + f) := by
  rw [Periodic.samplesUntilNextNotification, Int.lt_toNat, Int.lt_ceil, due_iff h.pos, not_lt, ← Int.lt_add_one_iff,
    Int.floor_lt, div_lt_iff₀ h.pos, h.next]
  push_cast
  constructor <;> intro h <;> linarith

theorem filter_below (T n u : Nat) (q : Nat → Bool) (hq : ∀ f, q (T + f) = decide (f < u)) :
    (List.range' T n).filter q = List.range' T (min n u) := by
  induction n with
  | zero => simp
  | succ n ih =>
    rw [List.range'_1_concat, List.filter_append, ih]
    by_cases h : n < u
    · rw [List.filter_cons_of_pos (by rw [hq]; simpa using h), List.filter_nil, Nat.min_eq_left (by omega),
        Nat.min_eq_left (by omega), List.range'_1_concat]
    · rw [List.filter_cons_of_neg (by rw [hq]; simpa using h), List.filter_nil, List.append_nil]
      congr 1
      omega

open Classical in
theorem block_inspected {p : Periodic} {I : ℚ} {T : Nat} (h : p.At I T) (n : Nat) :
    inspectedFrames I [(T, n)] = List.range' T (min n p.samplesUntilNextNotification) := by
  rw [inspectedFrames]
  simp only [List.flatMap_cons, List.flatMap_nil, List.append_nil]
  exact filter_below T n _ _ fun f => by simp [until_iff h]

theorem inspected_append (I : ℚ) (as bs : List (Nat × Nat)) :
    inspectedFrames I (as ++ bs) = inspectedFrames I as ++ inspectedFrames I bs := by
  simp [inspectedFrames]

theorem inspected_lt (I : ℚ) {bs : List (Nat × Nat)} {T : Nat} (h : ∀ b ∈ bs, b.1 + b.2 ≤ T) :
    ∀ F ∈ inspectedFrames I bs, F < T := by
  intro F hF
  obtain ⟨b, hb, hF⟩ := List.mem_flatMap.mp hF
  have := List.mem_range'_1.mp (List.mem_filter.mp hF).1
  have := h b hb
  omega

theorem times_append (I : ℚ) (as bs : List (Nat × Nat)) :
    reportTimes I (as ++ bs) = reportTimes I as ++ reportTimes I bs := by
  simp [reportTimes]

open Classical in
theorem times_block (I : ℚ) (T n : Nat) :
    reportTimes I [(T, n)] = if DueWithin I T (T + n) then [T + n] else [] := by
  rw [reportTimes]
  split <;> simp_all

theorem times_le (I : ℚ) {bs : List (Nat × Nat)} {T : Nat} (h : ∀ b ∈ bs, b.1 + b.2 ≤ T) :
    ∀ t ∈ reportTimes I bs, t ≤ T := by
  intro t ht
  obtain ⟨b, hb, rfl⟩ := List.mem_map.mp ht
  exact h b (List.mem_filter.mp hb).1

theorem last_le {ts : List Nat} {T : Nat} (h : ∀ t ∈ ts, t ≤ T) : ts.getLastD 0 ≤ T := by
  cases ts with
  | nil => simp
  | cons t ts =>
    rw [List.getLastD_cons]
    rcases List.mem_cons.mp (List.getLastD_mem_cons (l := ts) (a := t)) with h' | h'
    · rw [h']; exact h _ (by simp)
    · exact h _ (List.mem_cons_of_mem _ h')

theorem zip_snoc (t : Nat) : ∀ (ts : List Nat) (a : Nat),
    (a :: (ts ++ [t])).zip (ts ++ [t]) = (a :: ts).zip ts ++ [(ts.getLastD a, t)] := by
  intro ts
  induction ts with
  | nil => intro a; rfl
  | cons b ts ih =>
    intro a
    rw [List.cons_append, List.zip_cons_cons, ih, List.zip_cons_cons, List.getLastD_cons, List.cons_append]

/-! ## Followers -/

namespace Follower

theorem run_append (v : Follower) (as bs : List ℝ) : v.run (as ++ bs) = (v.run as).run bs := by
  rw [run, run, run, List.foldl_append]

theorem values_append (as : List ℝ) : ∀ (v : Follower) (bs : List ℝ),
    v.values (as ++ bs) = v.values as ++ (v.run as).values bs := by
  induction as with
  | nil => intro v bs; rfl
  | cons a as ih =>
    intro v bs
    rw [List.cons_append, values, ih, values, List.cons_append]
    rfl

theorem values_levels (v : Follower) (y : Nat → ℝ) (T m : Nat) :
    v.values ((List.range' T m).map y) =
      (List.range' T m).map fun F => (v.run ((List.range' T (F + 1 - T)).map y)).level := by
  induction m with
  | zero => rfl
  | succ m ih =>
    rw [List.range'_1_concat, List.map_append, values_append, ih, List.map_append]
    congr 1
    simp only [List.map_cons, List.map_nil, values]
    rw [show T + m + 1 - T = m + 1 by omega, List.range'_1_concat, List.map_append, run_append]
    rfl

end Follower

/-! ## Levels and peaks -/

namespace MeterKind

variable (m : MeterKind) (sr : Nat)

theorem level_old (old : List Nat) (T n : Nat) (y : Nat → ℝ) {F : Nat} (hF : F < T) :
    m.level sr (old ++ List.range' T n) y F = m.level sr old y F := by
  have e : (List.range' T n).filter (· ≤ F) = [] := List.filter_eq_nil_iff.mpr fun G hG => by
    have := List.mem_range'_1.mp hG
    simp
    omega
  rw [level, level, List.filter_append, e, List.append_nil]

theorem level_new {old : List Nat} {T : Nat} (h : ∀ F ∈ old, F < T) (n : Nat) (y : Nat → ℝ) {F : Nat} (hT : T ≤ F)
    (hF : F < T + n) : m.level sr (old ++ List.range' T n) y F =
      (((Follower.new sr m.attackTime m.releaseTime).run (old.map y)).run ((List.range' T (F + 1 - T)).map y)).level := by
  have e1 : old.filter (· ≤ F) = old := List.filter_eq_self.mpr fun G hG => by have := h G hG; simp; omega
  have e2 : (List.range' T n).filter (· ≤ F) = List.range' T (F + 1 - T) := by
    rw [filter_below T n (F + 1 - T) _ fun f => by
      congr 1
      simp only [eq_iff_iff]
      omega]
    congr 1
    omega
  rw [level, List.filter_append, e1, e2, List.map_append, Follower.run_append]

theorem peak_old (old : List Nat) (T n : Nat) (y : Nat → ℝ) (a : Nat) {b : Nat} (hb : b ≤ T) :
    m.peak sr (old ++ List.range' T n) y a b = m.peak sr old y a b := by
  have e2 : (List.range' T n).filter (fun F => a ≤ F ∧ F < b) = [] := List.filter_eq_nil_iff.mpr fun G hG => by
    have := List.mem_range'_1.mp hG
    simp
    omega
  rw [peak, peak, List.filter_append, e2, List.append_nil]
  congr 1
  apply List.map_congr_left
  intro F hF
  have := (List.mem_filter.mp hF).2
  simp only [decide_eq_true_eq] at this
  exact level_old m sr old T n y (by omega)

theorem peak_new {old : List Nat} {T : Nat} (h : ∀ F ∈ old, F < T) (n k : Nat) (hn : n ≤ k) (y : Nat → ℝ) {a : Nat} (ha : a ≤ T) :
    m.peak sr (old ++ List.range' T n) y a (T + k) = peakOf (m.peak sr old y a T)
      (((Follower.new sr m.attackTime m.releaseTime).run (old.map y)).values ((List.range' T n).map y)) := by
  have e1 : old.filter (fun F => a ≤ F ∧ F < T + k) = old.filter (fun F => a ≤ F ∧ F < T) := by
    apply List.filter_congr
    intro F hF
    have := h F hF
    congr 1
    simp only [eq_iff_iff]
    omega
  have e2 : (List.range' T n).filter (fun F => a ≤ F ∧ F < T + k) = List.range' T n :=
    List.filter_eq_self.mpr fun G hG => by
      have := List.mem_range'_1.mp hG
      simp
      omega
  rw [peak, List.filter_append, e1, e2, List.map_append, peakOf, List.foldl_append, Follower.values_levels]
  have e3 : (old.filter fun F => a ≤ F ∧ F < T).map (m.level sr (old ++ List.range' T n) y) =
      (old.filter fun F => a ≤ F ∧ F < T).map (m.level sr old y) := by
    apply List.map_congr_left
    intro F hF
    exact level_old m sr old T n y (h F (List.mem_filter.mp hF).1)
  have e4 : (List.range' T n).map (m.level sr (old ++ List.range' T n) y) = (List.range' T n).map fun F =>
      (((Follower.new sr m.attackTime m.releaseTime).run (old.map y)).run ((List.range' T (F + 1 - T)).map y)).level := by
    apply List.map_congr_left
    intro F hF
    have := List.mem_range'_1.mp hF
    exact level_new m sr h n y (by omega) (by omega)
  rw [e3, e4]
  rfl

theorem peak_none (frames : List Nat) (y : Nat → ℝ) (a : Nat) : m.peak sr frames y a a = 0 := by
  rw [peak, List.filter_eq_nil_iff.mpr]
  · rfl
  · intro F _
    simp

/-- What is reported with one more block. -/
theorem reports_snoc {bs : List (Nat × Nat)} {T : Nat} (h : ∀ b ∈ bs, b.1 + b.2 ≤ T) (n k : Nat)
    (hk : inspectedFrames (m.interval sr) [(T, n)] = List.range' T k) (x : Nat → Nat → ℝ) :
    (DueWithin (m.interval sr) T (T + n) → m.reports sr (bs ++ [(T, n)]) x = m.reports sr bs x ++
      (List.range m.channels).map fun c => ⟨c, m.peak sr (inspectedFrames (m.interval sr) (bs ++ [(T, n)])) (x c)
        ((reportTimes (m.interval sr) bs).getLastD 0) (T + n)⟩) ∧
    (¬ DueWithin (m.interval sr) T (T + n) → m.reports sr (bs ++ [(T, n)]) x = m.reports sr bs x) := by
  have hold : ∀ p ∈ (0 :: reportTimes (m.interval sr) bs).zip (reportTimes (m.interval sr) bs), p.2 ≤ T := by
    intro p hp
    exact times_le _ h _ (List.of_mem_zip hp).2
  have hsame : (((0 :: reportTimes (m.interval sr) bs).zip (reportTimes (m.interval sr) bs)).flatMap fun p =>
      (List.range m.channels).map fun c => (⟨c, m.peak sr (inspectedFrames (m.interval sr) (bs ++ [(T, n)])) (x c) p.1 p.2⟩ :
        EnvelopeNotification)) = m.reports sr bs x := by
    rw [reports, List.flatMap_def, List.flatMap_def]
    congr 1
    apply List.map_congr_left
    intro p hp
    apply List.map_congr_left
    intro c _
    rw [inspected_append, hk, peak_old m sr _ T k (x c) p.1 (hold p hp)]
  constructor
  · intro hd
    rw [← hsame, reports]
    rw [times_append, times_block, if_pos hd, zip_snoc, List.flatMap_append]
    simp
  · intro hd
    rw [← hsame, reports]
    rw [times_append, times_block, if_neg hd, List.append_nil]

end MeterKind
end Rawdio
