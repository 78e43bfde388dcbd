import Mathlib.Algebra.Order.Archimedean.Basic
import Verif.Lemmas.Timestamp
import Verif.Lemmas.Unbounded
import Verif.Spec.Metronome

/-! Helper lemmas: the beats that a metronome schedules. -/

namespace Rawdio
namespace Metronome

theorem position_eq (tempo : ℚ) (k : ℕ) : Timestamp.fromSeconds (k * (60 / tempo)) = (beat tempo k).time := by
  simp only [beat, place, Timestamp.fromSeconds, Timestamp.one]
  norm_num

theorem place_mono {tempo : ℚ} (h : 0 < tempo) {j k : ℕ} (hjk : j ≤ k) : place tempo j ≤ place tempo k := by
  have : (j : ℚ) ≤ k := by exact_mod_cast hjk
  have h2 : 0 ≤ 60 / tempo := by positivity
  exact mul_le_mul_of_nonneg_right (mul_le_mul_of_nonneg_right this h2) (by norm_num)

theorem time_mono {tempo : ℚ} (h : 0 < tempo) {j k : ℕ} (hjk : j ≤ k) : (beat tempo j).time ≤ (beat tempo k).time :=
  Timestamp.roundHalfEven_mono (place_mono h hjk)

theorem le_time {tempo : ℚ} {k : ℕ} {t : Int} (h : (t : ℚ) ≤ place tempo k) : t ≤ (beat tempo k).time := by
  have := Timestamp.roundHalfEven_mono h
  rwa [Timestamp.roundHalfEven_int] at this

theorem time_le {tempo : ℚ} {k : ℕ} {t : Int} (h : place tempo k ≤ t) : (beat tempo k).time ≤ t := by
  have := Timestamp.roundHalfEven_mono h
  rwa [Timestamp.roundHalfEven_int] at this

theorem beatsFrom_more {I : ℚ} {e : Int} : ∀ (f k : ℕ) (x : List Beat), beatsFrom I e f k = .ok x → ∀ g,
    beatsFrom I e (g + f) k = .ok x := by
  intro f
  induction f with
  | zero => intro k x h; cases h
  | succ f ih =>
    intro k x h g
    rw [← Nat.add_assoc, beatsFrom]
    rw [beatsFrom] at h
    dsimp only at h ⊢
    split at h
    · rw [if_pos (by assumption)]
      exact h
    · rw [if_neg (by assumption)]
      cases hr : beatsFrom I e f (k + 1) with
      | error _ => rw [hr] at h; cases h
      | ok y => rw [hr] at h; rw [ih _ _ hr g]; exact h

theorem beatsFrom_ok {tempo : ℚ} (h : 0 < tempo) {e : Int} : ∀ (d k : ℕ), e ≤ (beat tempo (k + d)).time →
    ∃ bs, beatsFrom (60 / tempo) e (d + 1) k = .ok bs ∧ Just tempo bs fun j => k ≤ j ∧ (beat tempo j).time < e := by
  intro d
  induction d with
  | zero =>
    intro k hk
    refine ⟨[], ?_, [], rfl, .nil, fun j => ?_⟩
    · rw [beatsFrom]
      dsimp only
      rw [position_eq, if_pos (by exact hk)]
    · simp only [List.not_mem_nil, false_iff, not_and, not_lt]
      intro hj
      exact hk.trans (time_mono h hj)
  | succ d ih =>
    intro k hk
    rw [beatsFrom]
    dsimp only
    rw [position_eq]
    by_cases hto : e ≤ (beat tempo k).time
    · rw [if_pos hto]
      refine ⟨[], rfl, [], rfl, .nil, fun j => ?_⟩
      simp only [List.not_mem_nil, false_iff, not_and, not_lt]
      intro hj
      exact hto.trans (time_mono h hj)
    · obtain ⟨bs, h1, ks, h2, h3, h4⟩ := ih (k + 1) (by rwa [show k + 1 + d = k + (d + 1) by omega])
      rw [if_neg hto, h1]
      refine ⟨_, rfl, k :: ks, ?_, List.pairwise_cons.mpr ⟨fun j hj => ((h4 j).mp hj).1, h3⟩, fun j => ?_⟩
      · rw [h2, List.map_cons]
        simp only [beat, Nat.dvd_iff_mod_eq_zero]
      · rw [List.mem_cons, h4]
        constructor
        · rintro (rfl | ⟨h5, h6⟩)
          · exact ⟨le_refl _, not_le.mp hto⟩
          · exact ⟨by omega, h6⟩
        · rintro ⟨h5, h6⟩
          by_cases hj : j = k
          · exact .inl hj
          · exact .inr ⟨by omega, h6⟩

theorem reaches {tempo : ℚ} (h : 0 < tempo) (e : Int) (k : ℕ) : ∃ d, e ≤ (beat tempo (k + d)).time := by
  have h1 : (0 : ℚ) < 60 / tempo * 2 ^ 32 := by positivity
  obtain ⟨d, hd⟩ := exists_nat_ge ((e : ℚ) / (60 / tempo * 2 ^ 32))
  refine ⟨d, (le_time ?_).trans (time_mono h (Nat.le_add_left d k))⟩
  rw [div_le_iff₀ h1] at hd
  rw [place]
  linarith

theorem first_iff {tempo : ℚ} (h : 0 < tempo) (fromTime : Int) (k : ℕ) :
    ⌈Timestamp.asSeconds fromTime / (60 / tempo)⌉.toNat ≤ k ↔ (fromTime : ℚ) ≤ place tempo k := by
  have h1 : (0 : ℚ) < 60 / tempo := by positivity
  rw [Int.toNat_le, Int.ceil_le, div_le_iff₀ h1, Timestamp.asSeconds, div_le_iff₀ Timestamp.one_pos, place, Timestamp.one]
  norm_num

theorem schedule_ok {tempo : ℚ} (h : 0 < tempo) (fromTime toTime : Int) :
    ∃ bs, scheduleEvents (60 / tempo) fromTime toTime = .ok bs ∧
      Just tempo bs fun k => (fromTime : ℚ) ≤ place tempo k ∧ (beat tempo k).time < toTime := by
  obtain ⟨d, hd⟩ := reaches h toTime ⌈Timestamp.asSeconds fromTime / (60 / tempo)⌉.toNat
  obtain ⟨bs, h1, ks, h2, h3, h4⟩ := beatsFrom_ok h _ _ hd
  refine ⟨bs, unbounded_of (fun f x hx g => beatsFrom_more f _ x hx g) h1, ks, h2, h3, fun k => ?_⟩
  exact (h4 k).trans (and_congr_left fun _ => first_iff h fromTime k)

theorem horizon_eq (now : Int) : Timestamp.incrementedBySeconds now lookAhead = horizon now := by
  simp only [Timestamp.incrementedBySeconds, lookAhead, horizon, Timestamp.fromSeconds]
  norm_num

theorem run_ok {tempo : ℚ} (h : 0 < tempo) : ∀ (times : List Int) (last : Int) (final : Int),
    (last :: times.map horizon).Pairwise (· ≤ ·) → (last :: times.map horizon).getLast? = some final →
    ∃ bs, run (60 / tempo) last times = .ok bs ∧
      Just tempo bs fun k => (last : ℚ) ≤ place tempo k ∧ (beat tempo k).time < final ∧
        ∀ t ∈ times, (beat tempo k).time = horizon t → (horizon t : ℚ) ≤ place tempo k := by
  intro times
  induction times with
  | nil =>
    intro last final _ hfin
    obtain rfl : last = final := by simpa using hfin
    refine ⟨[], rfl, [], rfl, .nil, fun k => ?_⟩
    simp only [List.not_mem_nil, false_iff, not_and]
    intro h1 h2
    exact absurd (le_time h1) (by omega)
  | cons t times ih =>
    intro last final hp hfin
    rw [List.map_cons] at hp hfin
    rw [List.getLast?_cons_cons] at hfin
    obtain ⟨hp1, hp2⟩ := List.pairwise_cons.mp hp
    obtain ⟨as, a1, ks, a2, a3, a4⟩ := schedule_ok h last (horizon t)
    obtain ⟨bs, b1, js, b2, b3, b4⟩ := ih (horizon t) final hp2 hfin
    have hlt : last ≤ horizon t := hp1 _ (by simp)
    have hfinal : horizon t ≤ final := by
      have hm : final ∈ horizon t :: times.map horizon := List.mem_of_getLast? hfin
      rcases List.mem_cons.mp hm with rfl | hm
      · exact le_refl _
      · exact (List.pairwise_cons.mp hp2).1 _ hm
    refine ⟨as ++ bs, ?_, ks ++ js, ?_, ?_, ?_⟩
    · rw [run]
      rw [horizon_eq, a1]
      change (run (60 / tempo) (horizon t) times >>= fun rest => Except.ok (as ++ rest)) = _
      rw [b1]
      rfl
    · rw [List.map_append, a2, b2]
    · rw [List.pairwise_append]
      refine ⟨a3, b3, fun j hj k hk => ?_⟩
      by_contra hle
      have h1 := ((a4 j).mp hj).2
      have h2 := le_time ((b4 k).mp hk).1
      have h3 := time_mono h (not_lt.mp hle)
      omega
    · intro k
      rw [List.mem_append, a4, b4]
      constructor
      · rintro (⟨h1, h2⟩ | ⟨h1, h2, h3⟩)
        · refine ⟨h1, by omega, fun s hs he => ?_⟩
          exfalso
          rcases List.mem_cons.mp hs with rfl | hs
          · omega
          · have := (List.pairwise_cons.mp hp2).1 _ (List.mem_map_of_mem hs)
            omega
        · refine ⟨(by exact_mod_cast hlt : (last : ℚ) ≤ horizon t).trans h1, h2, fun s hs he => ?_⟩
          rcases List.mem_cons.mp hs with rfl | hs
          · exact h1
          · exact h3 s hs he
      · rintro ⟨h1, h2, h3⟩
        by_cases hb : (beat tempo k).time < horizon t
        · exact .inl ⟨h1, hb⟩
        · right
          refine ⟨?_, h2, fun s hs => h3 s (List.mem_cons_of_mem _ hs)⟩
          by_cases he : (beat tempo k).time = horizon t
          · exact h3 t (by simp) he
          · by_contra hn
            have := time_le (not_le.mp hn).le
            omega

end Metronome
end Rawdio
