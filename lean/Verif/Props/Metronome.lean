import Verif.Lemmas.Metronome

/-!
# Which beats a metronome plays (C92)
-/

namespace Rawdio
namespace Metronome

/-- C92, partial: over any turns of the loop, at times that do not go back, the metronome schedules each beat that is before
the end of the last interval once, in order, at its place, one in four of them high. Missing: beats that come just before
the end of an interval and are rounded to it. These are never scheduled. -/
theorem C92_beats_partial (tempo : ℚ) (h : 0 < tempo) (times : List Int) (now : Int) (h0 : ∀ t ∈ times ++ [now], 0 ≤ t)
    (hs : (times ++ [now]).Pairwise (· ≤ ·)) :
    ∃ bs, program tempo (times ++ [now]) = .ok bs ∧ Just tempo bs fun k => (beat tempo k).time < horizon now ∧
      ∀ t ∈ times, (beat tempo k).time = horizon t → (horizon t : ℚ) ≤ place tempo k := by
  have hz : 0 ≤ Timestamp.fromSeconds (33333334 / 10 ^ 9) := by
    have := Timestamp.fromSeconds_mono (a := 0) (b := 33333334 / 10 ^ 9) (by norm_num)
    rwa [show Timestamp.fromSeconds 0 = 0 from by simp [Timestamp.fromSeconds, Timestamp.roundHalfEven]] at this
  obtain ⟨bs, h1, ks, h2, h3, h4⟩ := run_ok h (times ++ [now]) 0 (horizon now) (by
    rw [List.pairwise_cons, List.pairwise_map]
    refine ⟨fun t ht => ?_, hs.imp fun hab => ?_⟩
    · obtain ⟨u, hu, rfl⟩ := List.mem_map.mp ht
      have := h0 u hu
      unfold horizon
      omega
    · unfold horizon
      omega) (by
    rw [List.map_append, ← List.cons_append, List.map_cons, List.map_nil, List.getLast?_concat])
  refine ⟨bs, h1, ks, h2, h3, fun k => ?_⟩
  rw [h4]
  constructor
  · rintro ⟨_, h5, h6⟩
    exact ⟨h5, fun t ht => h6 t (List.mem_append_left _ ht)⟩
  · rintro ⟨h5, h6⟩
    refine ⟨?_, h5, fun t ht he => ?_⟩
    · rw [Int.cast_zero, place]
      positivity
    · rcases List.mem_append.mp ht with ht | ht
      · exact h6 t ht he
      · rw [List.mem_singleton] at ht
        subst ht
        omega

/-- C92: at tempos for which beats are a whole number of units apart (such as 120, 60 or 15360 / 127), no beat is missing,
whatever the times of the turns. -/
theorem C92_whole_beats (tempo : ℚ) (h : 0 < tempo) (u : ℕ) (hu : 60 / tempo * 2 ^ 32 = u) (times : List Int) (now : Int)
    (h0 : ∀ t ∈ times ++ [now], 0 ≤ t) (hs : (times ++ [now]).Pairwise (· ≤ ·)) :
    ∃ bs, program tempo (times ++ [now]) = .ok bs ∧ Just tempo bs fun k => (beat tempo k).time < horizon now := by
  obtain ⟨bs, h1, ks, h2, h3, h4⟩ := C92_beats_partial tempo h times now h0 hs
  refine ⟨bs, h1, ks, h2, h3, fun k => ?_⟩
  refine (h4 k).trans (and_iff_left ?_)
  intro t _ he
  have hp : place tempo k = ((k * u : ℕ) : Int) := by
    rw [place, mul_assoc, hu]
    push_cast
    ring
  rw [beat, hp, Timestamp.roundHalfEven_int] at he
  rw [hp]
  exact_mod_cast he.symm.le

/-- C92: at every tempo, no beat is scheduled twice, none comes before an earlier one, and a beat is missing only if it is
at most half a unit of 2⁻³² s before the end of an interval. -/
theorem C92_missing (tempo : ℚ) (h : 0 < tempo) (times : List Int) (now : Int) (h0 : ∀ t ∈ times ++ [now], 0 ≤ t)
    (hs : (times ++ [now]).Pairwise (· ≤ ·)) :
    ∃ (bs : List Beat) (ks : List ℕ), program tempo (times ++ [now]) = .ok bs ∧ bs = ks.map (beat tempo) ∧
      ks.Pairwise (· < ·) ∧ ∀ k, (beat tempo k).time < horizon now → k ∉ ks → ∃ t ∈ times, place tempo k < horizon t ∧ (horizon t : ℚ) ≤ place tempo k + 1 / 2 := by
  obtain ⟨bs, h1, ks, h2, h3, h4⟩ := C92_beats_partial tempo h times now h0 hs
  refine ⟨bs, ks, h1, h2, h3, fun k hk hn => ?_⟩
  rw [h4] at hn
  push Not at hn
  obtain ⟨t, ht, he, hl⟩ := hn hk
  refine ⟨t, ht, hl, ?_⟩
  have := Timestamp.roundHalfEven_error (place tempo k)
  rw [abs_le] at this
  rw [← he]
  change ((Timestamp.roundHalfEven (place tempo k) : ℤ) : ℚ) ≤ _
  linarith

/-- C92, violated: a tempo of about 120, and turns at 0, 20580 and 30000 frames of 44.1 kHz: beat 1 is never scheduled though
its time is before the end of the last interval. -/
theorem C92_beat_missing_violated : ∃ (tempo : ℚ) (times : List Int) (now : Int) (bs : List Beat), 119 < tempo ∧ tempo < 121 ∧
    times = [0, Timestamp.fromSamples 20580 44100] ∧ now = Timestamp.fromSamples 30000 44100 ∧
    program tempo (times ++ [now]) = .ok bs ∧ (beat tempo 1).time < horizon now ∧ bs = [beat tempo 0] := by
  have e0 : Timestamp.fromSamples 20580 44100 = 2004318071 := by
    apply Timestamp.roundHalfEven_eq_of_abs_lt
    rw [abs_lt, Timestamp.one]; norm_num
  have e1 : Timestamp.fromSamples 30000 44100 = 2921746460 := by
    apply Timestamp.roundHalfEven_eq_of_abs_lt
    rw [abs_lt, Timestamp.one]; norm_num
  have e2 : Timestamp.fromSeconds (33333334 / 10 ^ 9) = 143165579 := by
    apply Timestamp.roundHalfEven_eq_of_abs_lt
    rw [abs_lt, Timestamp.one]; norm_num
  have e3 : ∀ k : ℕ, place (60 * 2 ^ 32 / (2147483650 - 1 / 4)) k = k * (2147483650 - 1 / 4) := by
    intro k; rw [place]; norm_num; ring
  obtain ⟨bs, h1, ks, h2, h3, h4⟩ := C92_beats_partial (60 * 2 ^ 32 / (2147483650 - 1 / 4)) (by norm_num) [0, 2004318071]
    2921746460 (by simp) (by simp)
  have t1 : (beat (60 * 2 ^ 32 / (2147483650 - 1 / 4)) 1).time = 2147483650 := by
    apply Timestamp.roundHalfEven_eq_of_abs_lt
    rw [e3, abs_lt]; norm_num
  refine ⟨60 * 2 ^ 32 / (2147483650 - 1 / 4), _, _, bs, by norm_num, by norm_num, rfl, rfl, by rw [e0, e1]; exact h1, ?_, ?_⟩
  · rw [t1, e1, horizon, e2]; norm_num
  have hmem : ∀ k, k ∈ ks ↔ k = 0 := by
    intro k
    rw [h4]
    dsimp only
    match k with
    | 0 =>
      have t0 : (beat (60 * 2 ^ 32 / (2147483650 - 1 / 4)) 0).time = 0 := by
        apply Timestamp.roundHalfEven_eq_of_abs_lt
        rw [e3, abs_lt]; norm_num
      rw [t0]
      simp [horizon, e2]
    | 1 =>
      rw [t1]
      simp only [one_ne_zero, iff_false, not_and, horizon, e2]
      intro _ hall
      have := hall 2004318071 (by simp) (by norm_num)
      rw [e3] at this
      norm_num at this
    | k + 2 =>
      simp only [Nat.add_eq_zero_iff, OfNat.ofNat_ne_zero, and_false, iff_false, not_and]
      intro hlt
      exfalso
      have := le_time (tempo := 60 * 2 ^ 32 / (2147483650 - 1 / 4)) (k := k + 2) (t := 4294967298) (by
        rw [e3]; push_cast; have : (0 : ℚ) ≤ k := Nat.cast_nonneg k; norm_num; linarith)
      rw [horizon, e2] at hlt
      omega
  have hks : ks = [0] := by
    match ks, h3, hmem with
    | [], _, hmem => exact absurd ((hmem 0).mpr rfl) (by simp)
    | [a], _, hmem => rw [(hmem a).mp (by simp)]
    | a :: b :: ks, h3, hmem =>
      have h5 := (hmem a).mp (by simp)
      have h6 := (hmem b).mp (by simp)
      have := (List.pairwise_cons.mp h3).1 b (by simp)
      omega
  rw [h2, hks]
  rfl

example : (0 : ℚ) < 120 ∧ 60 / (120 : ℚ) * 2 ^ 32 = (2147483648 : ℕ) ∧
    (∀ t ∈ [0, Timestamp.fromSamples 700 44100] ++ [Timestamp.fromSamples 1500 44100], 0 ≤ t) ∧
    ([0, Timestamp.fromSamples 700 44100] ++ [Timestamp.fromSamples 1500 44100]).Pairwise (· ≤ ·) ∧
    (beat 120 0).time < horizon (Timestamp.fromSamples 1500 44100) := by
  have h1 := Timestamp.fromSamples_nonneg 700 44100
  have h2 := Timestamp.fromSamples_nonneg 1500 44100
  have h3 := Timestamp.fromSamples_mono 44100 (a := 700) (b := 1500) (by norm_num)
  have e2 : Timestamp.fromSeconds (33333334 / 10 ^ 9) = 143165579 := by
    apply Timestamp.roundHalfEven_eq_of_abs_lt
    rw [abs_lt, Timestamp.one]; norm_num
  push_cast at h1 h2
  refine ⟨by norm_num, by norm_num, by simp [h1, h2], by simp [h1, h2, h3], ?_⟩
  rw [horizon, e2]
  have : (beat 120 0).time = 0 := by simp [beat, place, Timestamp.roundHalfEven]
  omega

end Metronome
end Rawdio
