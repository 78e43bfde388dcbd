import Verif.Lemmas.Clicks
import Verif.Lemmas.Metronome
import Verif.Lemmas.Sets
import Verif.Spec.MetronomeExample

/-! Helper lemmas: what the requests of a metronome are. -/

namespace Rawdio
namespace Metronome

open Clicks AdsrSchedule

variable {S P C : Type}

/-! ## Which set is in effect -/

theorem valueAt_within {sr : ℕ} (hsr : 0 < sr) (hle : sr ≤ 2 ^ 30) {v : ℝ} {xs : List (Timed ℝ)} {frames : List ℕ}
    (hp : xs.Pairwise fun x y => x.first ≤ y.first ∧ x.time ≤ y.time)
    (hf : List.Forall₂ (fun x g => AtFrame sr x.first x.time g) xs frames) {F : ℕ} {t : Int}
    (ht : |(t : ℚ) - F / sr * 2 ^ 32| ≤ 3 / 2) :
    ((∀ b ∈ frames.head?, F < b) → valueAt v xs F t = v) ∧
    ∀ j x g, xs[j]? = some x → frames[j]? = some g → g + 2 ≤ F → (∀ b, frames[j + 1]? = some b → F < b) →
      valueAt v xs F t = x.what := by
  have hu := unit_large hsr hle
  obtain ⟨u, hu'⟩ : ∃ u : ℚ, u = 1 / sr * 2 ^ 32 := ⟨_, rfl⟩
  rw [← hu'] at hu
  have e : ∀ a : ℚ, a / sr * 2 ^ 32 = a * u := fun a => by rw [hu']; ring
  rw [e] at ht
  obtain ⟨t1, t2⟩ := abs_le.mp ht
  have late : ∀ {x : Timed ℝ} {g : ℕ}, AtFrame sr x.first x.time g → F < g → F < x.first ∨ t < x.time := by
    intro x g ⟨h1, h2, _⟩ hg
    rcases h2 with h2 | h2
    · left; omega
    · right
      rw [e] at h2
      have h3 : ((F + 1 : ℕ) : ℚ) ≤ g := by exact_mod_cast hg
      push_cast at h3
      have h4 : ((F : ℚ) + 1) * u ≤ g * u := mul_le_mul_of_nonneg_right h3 (by linarith)
      have : (t : ℚ) < x.time := by linarith
      exact_mod_cast this
  have later : ∀ {x y : Timed ℝ}, x.first ≤ y.first ∧ x.time ≤ y.time → (F < x.first ∨ t < x.time) →
      (F < y.first ∨ t < y.time) := by
    intro x y h1 h2
    rcases h2 with h2 | h2
    · left; omega
    · right; omega
  obtain ⟨hlen, hget⟩ := List.forall₂_iff_get.mp hf
  constructor
  · intro h
    refine valueAt_none ?_
    cases hf with
    | nil => intro x hx; cases hx
    | cons h1 h2 =>
      have h3 := late h1 (h _ rfl)
      intro y hy
      rcases List.mem_cons.mp hy with rfl | hy
      · exact h3
      · exact later ((List.pairwise_cons.mp hp).1 y hy) h3
  · intro j x g hx hg h2 hn
    obtain ⟨hj, rfl⟩ := List.getElem?_eq_some_iff.mp hx
    obtain ⟨hj', rfl⟩ := List.getElem?_eq_some_iff.mp hg
    have hat := hget j hj hj'
    simp only [List.get_eq_getElem] at hat
    have hin : xs[j].first ≤ F ∧ xs[j].time ≤ t := by
      refine ⟨by have := hat.1; omega, ?_⟩
      have h3 := hat.2.2
      rw [e] at h3
      have h4 : ((frames[j] + 2 : ℕ) : ℚ) ≤ F := by exact_mod_cast h2
      push_cast at h4
      have h5 : ((frames[j] : ℚ) + 2) * u ≤ F * u := mul_le_mul_of_nonneg_right h4 (by linarith)
      have : (xs[j].time : ℚ) < t := by linarith
      exact_mod_cast this.le
    have hsplit : xs = (xs.take j ++ [xs[j]]) ++ xs.drop (j + 1) := by
      rw [List.append_assoc, List.singleton_append, ← List.drop_eq_getElem_cons hj, List.take_append_drop]
    have hp' := hp
    rw [List.pairwise_iff_getElem] at hp
    rw [congrArg (valueAt v · F t) hsplit, valueAt_append, valueAt_none (a := xs.drop (j + 1)), valueAt_all, List.map_append, List.map_cons, List.map_nil, List.getLastD_concat]
    swap
    · intro y hy
      obtain ⟨i, hi, rfl⟩ := List.mem_iff_getElem.mp hy
      rw [List.length_drop] at hi
      rw [List.getElem_drop]
      have hf1 : j + 1 < frames.length := by omega
      have h3 := late (hget (j + 1) (by omega) hf1) (hn _ (List.getElem?_eq_getElem hf1))
      simp only [List.get_eq_getElem] at h3
      by_cases hi0 : i = 0
      · subst hi0
        exact h3
      · exact later (hp (j + 1) (j + 1 + i) (by omega) (by omega) (by omega)) h3
    · intro y hy
      rcases List.mem_append.mp hy with hy | hy
      · obtain ⟨i, hi, rfl⟩ := List.mem_iff_getElem.mp hy
        rw [List.length_take] at hi
        rw [List.getElem_take]
        have := hp i j (by omega) (by omega) (by omega)
        omega
      · rw [List.mem_singleton] at hy
        rw [hy]
        exact hin

/-! ## The turns of the loop -/

theorem run_append {I : ℚ} (as bs : List Int) : ∀ (last : Int) (x y : List Beat), run I last as = .ok x →
    run I (as.foldl (fun _ now => Timestamp.incrementedBySeconds now lookAhead) last) bs = .ok y →
    run I last (as ++ bs) = .ok (x ++ y) := by
  induction as with
  | nil =>
    intro last x y h1 h2
    injection h1 with h1
    subst h1
    exact h2
  | cons a as ih =>
    intro last x y h1 h2
    rw [run] at h1
    rw [List.cons_append, run]
    cases hs : scheduleEvents I last (Timestamp.incrementedBySeconds a lookAhead) with
    | error f => rw [hs] at h1; cases h1
    | ok z =>
      rw [hs] at h1
      cases hr : run I (Timestamp.incrementedBySeconds a lookAhead) as with
      | error f =>
        simp only [bind, Except.bind] at h1
        rw [hr] at h1
        cases h1
      | ok w =>
        simp only [bind, Except.bind] at h1 ⊢
        rw [hr] at h1
        injection h1 with h1
        rw [ih _ w y hr h2, ← h1]
        simp [pure, Except.pure]

theorem run_all {tempo : ℚ} {turns : ℕ → List Int} {beats : ℕ → List Beat}
    (h : ∀ i, beatsBefore tempo turns i = .ok (beats i)) (n : ℕ) :
    run (60 / tempo) 0 ((List.range n).flatMap turns) = .ok ((List.range n).flatMap beats) := by
  induction n with
  | zero => rfl
  | succ n ih =>
    rw [List.range_succ, List.flatMap_append, List.flatMap_append, List.flatMap_singleton, List.flatMap_singleton]
    exact run_append _ _ _ _ _ ih (h n)

theorem run_total {tempo : ℚ} (h : 0 < tempo) (times : List Int) : ∀ last, ∃ bs, run (60 / tempo) last times = .ok bs := by
  induction times with
  | nil => intro last; exact ⟨_, rfl⟩
  | cons t times ih =>
    intro last
    obtain ⟨as, h1, _⟩ := schedule_ok h last (Timestamp.incrementedBySeconds t lookAhead)
    obtain ⟨bs, h2⟩ := ih (Timestamp.incrementedBySeconds t lookAhead)
    refine ⟨as ++ bs, ?_⟩
    rw [run]
    simp only [bind, Except.bind]
    rw [h1]
    dsimp only
    rw [h2]
    rfl

theorem frequency_pos {tempo : ℚ} (h : 0 < tempo) {turns : ℕ → List Int} {beats : ℕ → List Beat}
    (hb : ∀ i, beatsBefore tempo turns i = .ok (beats i)) (i : ℕ) : ∀ b ∈ beats i, 0 < b.frequency := by
  have key : ∀ (times : List Int) (last : Int) (bs : List Beat), run (60 / tempo) last times = .ok bs →
      ∀ b ∈ bs, 0 < b.frequency := by
    intro times
    induction times with
    | nil =>
      intro last bs h1 b hb
      injection h1 with h1
      subst h1
      cases hb
    | cons t times ih =>
      intro last bs h1 b hb
      obtain ⟨as, a1, ns, a2, _⟩ := schedule_ok h last (Timestamp.incrementedBySeconds t lookAhead)
      obtain ⟨cs, c1⟩ := run_total h times (Timestamp.incrementedBySeconds t lookAhead)
      rw [run] at h1
      simp only [bind, Except.bind] at h1
      rw [a1] at h1
      dsimp only at h1
      rw [c1] at h1
      injection h1 with h1
      rw [← h1, List.mem_append] at hb
      rcases hb with hb | hb
      · rw [a2] at hb
        obtain ⟨k, _, rfl⟩ := List.mem_map.mp hb
        rw [beat]
        dsimp only
        split <;> norm_num
      · exact ih _ cs c1 b hb
  exact key _ _ _ (hb i)

theorem reached_eq (times : List Int) : lastSequenceTime times = reached times := by
  rcases List.eq_nil_or_concat times with rfl | ⟨ts, t, rfl⟩
  · rfl
  · rw [lastSequenceTime, reached, List.concat_eq_append, List.foldl_append, List.map_append, List.map_cons, List.map_nil,
      List.getLastD_concat, List.foldl_cons, List.foldl_nil, horizon_eq]

theorem reached_last (times : List Int) : (0 :: times.map horizon).getLast? = some (reached times) := by
  rw [reached]
  cases h : times.map horizon with
  | nil => rfl
  | cons a l => rw [List.getLast?_cons_cons, List.getLastD_eq_getLast?, List.getLast?_eq_getLast_of_ne_nil (by simp)]; rfl

theorem horizon_le {a b : Int} (h : a ≤ b) : horizon a ≤ horizon b := by
  unfold horizon
  omega

theorem le_horizon (a : Int) : a ≤ horizon a := by
  have : 0 ≤ Timestamp.fromSeconds (33333334 / 10 ^ 9) := by
    have := Timestamp.fromSeconds_mono (a := 0) (b := 33333334 / 10 ^ 9) (by norm_num)
    rwa [show Timestamp.fromSeconds 0 = 0 from by simp [Timestamp.fromSeconds, Timestamp.roundHalfEven]] at this
  unfold horizon
  omega

theorem horizons {times : List Int} (h0 : ∀ t ∈ times, 0 ≤ t) (hs : times.Pairwise (· ≤ ·)) :
    (0 :: times.map horizon).Pairwise (· ≤ ·) := by
  rw [List.pairwise_cons, List.pairwise_map]
  refine ⟨fun t ht => ?_, hs.imp fun h => horizon_le h⟩
  obtain ⟨u, hu, rfl⟩ := List.mem_map.mp ht
  exact (h0 u hu).trans (le_horizon u)

theorem scheduled_all {tempo : ℚ} (h : 0 < tempo) {times : List Int} (h0 : ∀ t ∈ times, 0 ≤ t) (hs : times.Pairwise (· ≤ ·))
    {bs : List Beat} (hb : run (60 / tempo) 0 times = .ok bs) : ∃ ns, bs = ns.map (beat tempo) ∧ Scheduled tempo times ns := by
  obtain ⟨bs', b1, ns, b2, b3, b4⟩ := run_ok h times 0 (reached times) (horizons h0 hs) (reached_last times)
  rw [b1] at hb
  injection hb with hb
  subst hb
  refine ⟨ns, b2, b3, fun k => (b4 k).trans ?_⟩
  refine ⟨fun hk => hk.2, fun hk => ⟨?_, hk⟩⟩
  rw [Int.cast_zero, place]
  positivity

theorem beats_after {tempo : ℚ} (h : 0 < tempo) {turns : ℕ → List Int} {beats : ℕ → List Beat}
    (hb : ∀ i, beatsBefore tempo turns i = .ok (beats i)) {n : ℕ} (h0 : ∀ t ∈ (List.range (n + 1)).flatMap turns, 0 ≤ t)
    (hs : ((List.range (n + 1)).flatMap turns).Pairwise (· ≤ ·)) :
    ∀ b ∈ beats n, turns n ≠ [] ∧ reached ((List.range n).flatMap turns) ≤ b.time := by
  have hp := horizons h0 hs
  rw [List.range_succ, List.flatMap_append, List.flatMap_singleton, List.map_append, ← List.cons_append] at hp
  have hl := reached_last ((List.range n).flatMap turns)
  obtain ⟨pre, hpre⟩ := List.getLast?_eq_some_iff.mp hl
  rw [hpre, List.append_assoc, List.singleton_append] at hp
  have hp2 := (List.pairwise_append.mp hp).2.1
  cases ht : (reached ((List.range n).flatMap turns) :: (turns n).map horizon).getLast? with
  | none => simp at ht
  | some final =>
    obtain ⟨bs, b1, ns, b2, _, b4⟩ := run_ok h (turns n) _ final hp2 ht
    have := hb n
    rw [beatsBefore, reached_eq, b1] at this
    injection this with this
    intro b hbm
    constructor
    · intro he
      rw [he] at b1
      injection b1 with b1
      rw [← this, ← b1] at hbm
      cases hbm
    · rw [← this, b2] at hbm
      obtain ⟨k, hk, rfl⟩ := List.mem_map.mp hbm
      exact le_time ((b4 k).mp hk).1

/-! ## Beats are far enough apart -/

/-- The stages of the clicks fit between the beats. -/
theorem stages_fit {sr : ℕ} (hsr : 250 ≤ sr) :
    20 * (stageFrames (5 / 1000) sr + stageFrames (25 / 1000) sr + 3) ≤ sr := by
  have h1 : (250 : ℝ) ≤ sr := by exact_mod_cast hsr
  have key : ∀ x : ℝ, 0 ≤ x → (stageFrames x sr : ℝ) ≤ x * sr + 1 := by
    intro x hx
    have h0 : 0 ≤ x * sr := by positivity
    rw [stageFrames, Nat.cast_max, max_le_iff]
    refine ⟨by push_cast; linarith, (Nat.ceil_lt_add_one h0).le⟩
  have k1 := key (5 / 1000) (by norm_num)
  have k2 := key (25 / 1000) (by norm_num)
  have : (((20 * (stageFrames (5 / 1000) sr + stageFrames (25 / 1000) sr + 3) : ℕ)) : ℝ) ≤ (sr : ℝ) := by
    push_cast
    linarith
  exact_mod_cast this

theorem beat_gap {tempo : ℚ} (h : 0 < tempo) (hle : tempo ≤ 1200) {sr n : ℕ} (hsr : 0 < sr) (hsr' : sr ≤ 2 ^ 30)
    (hn : 20 * (n + 1) ≤ sr) {j k : ℕ} (hjk : j < k) :
    ((beat tempo j).time : ℚ) + (n : ℚ) / sr * 2 ^ 32 ≤ (beat tempo k).time := by
  have hu := unit_large hsr hsr'
  have hp : (0 : ℚ) < sr := by exact_mod_cast hsr
  have e1 := abs_le.mp (Timestamp.roundHalfEven_error (place tempo j))
  have e2 := abs_le.mp (Timestamp.roundHalfEven_error (place tempo k))
  have h1 : (1 : ℚ) / 20 ≤ 60 / tempo := by
    rw [div_le_div_iff₀ (by norm_num) h]
    linarith
  have h2 : place tempo j + 1 / 20 * 2 ^ 32 ≤ place tempo k := by
    have h3 : ((j + 1 : ℕ) : ℚ) ≤ k := by exact_mod_cast hjk
    push_cast at h3
    have h4 := mul_le_mul_of_nonneg_right h3 (show (0 : ℚ) ≤ 60 / tempo by positivity)
    unfold place
    linarith
  have h3 : ((n : ℚ) + 1) / sr * 2 ^ 32 ≤ 1 / 20 * 2 ^ 32 := by
    apply mul_le_mul_of_nonneg_right _ (by norm_num)
    rw [div_le_div_iff₀ hp (by norm_num)]
    have : ((20 * (n + 1) : ℕ) : ℚ) ≤ sr := by exact_mod_cast hn
    push_cast at this
    linarith
  have h4 : ((n : ℚ) + 1) / sr * 2 ^ 32 = (n : ℚ) / sr * 2 ^ 32 + 1 / sr * 2 ^ 32 := by ring
  change ((Timestamp.roundHalfEven (place tempo j) : ℤ) : ℚ) + _ ≤ ((Timestamp.roundHalfEven (place tempo k) : ℤ) : ℚ)
  linarith

/-! ## The requests -/

/-- The beats, each with the number of frames rendered before it is scheduled. -/
def timed (beats : ℕ → List Beat) (ks : List (Call S P C)) : List (ℕ × Beat) :=
  (List.range ks.length).flatMap fun j => (beats j).map fun b => (framesIn (ks.take j), b)

theorem timed_beats (beats : ℕ → List Beat) (ks : List (Call S P C)) :
    (timed beats ks).map Prod.snd = (List.range ks.length).flatMap beats := by
  rw [timed, List.map_flatMap]
  congr 1
  funext j
  rw [List.map_map]
  exact List.map_id _

theorem framesIn_take_mono (ks : List (Call S P C)) {i j : ℕ} (h : i ≤ j) : framesIn (ks.take i) ≤ framesIn (ks.take j) := by
  have : ks.take i = (ks.take j).take i := by rw [List.take_take, min_eq_left h]
  rw [this]
  exact Gain.framesIn_take _ i

theorem timed_first (beats : ℕ → List Beat) (ks : List (Call S P C)) : (timed beats ks).Pairwise fun x y => x.1 ≤ y.1 := by
  rw [timed, List.pairwise_flatMap]
  constructor
  · intro j _
    rw [List.pairwise_map]
    exact List.pairwise_of_forall fun _ _ => le_refl _
  · refine (List.pairwise_lt_range (n := ks.length)).imp ?_
    intro i j hij x hx y hy
    obtain ⟨a, _, rfl⟩ := List.mem_map.mp hx
    obtain ⟨b, _, rfl⟩ := List.mem_map.mp hy
    exact framesIn_take_mono ks hij.le

/-- The notes before call `j`, with their numbers. -/
def notes (sequence : ℕ → ℕ) (beats : ℕ → List Beat) (j : ℕ) : List (Int × ℕ) :=
  ((beats j).zipIdx (3 + ((List.range j).flatMap beats).length)).map fun x => (x.1.time, sequence x.2)

theorem requested_notes (sequence : ℕ → ℕ) (beats : ℕ → List Beat) (ks : List (Call S P C)) :
    requested (notes sequence beats) ks =
      ((timed beats ks).zipIdx 3).map fun x => ⟨x.1.1, x.1.2.time, sequence x.2⟩ := by
  rw [requested, timed]
  have : ∀ n, ((List.range n).flatMap fun j => ((notes sequence beats) j).map fun x =>
        (⟨framesIn (ks.take j), x.1, x.2⟩ : Timed ℕ)) =
      (((List.range n).flatMap fun j => (beats j).map fun b => (framesIn (ks.take j), b)).zipIdx 3).map
        fun x => ⟨x.1.1, x.1.2.time, sequence x.2⟩ := by
    intro n
    induction n with
    | zero => rfl
    | succ n ih =>
      rw [List.range_succ, List.flatMap_append, List.flatMap_append, List.flatMap_singleton, List.flatMap_singleton,
        List.zipIdx_append, List.map_append, ih]
      congr 1
      have hl : ((List.range n).flatMap fun j => (beats j).map fun b => (framesIn (ks.take j), b)).length =
          ((List.range n).flatMap beats).length := by
        simp [List.length_flatMap]
      rw [hl, notes, List.map_map, List.zipIdx_map, List.map_map]
      rfl
  exact this _

/-- The sets before call `j`. -/
def sets (tuning : ℚ → ℝ) (beats : ℕ → List Beat) (j : ℕ) : List (Int × ℝ) :=
  (beats j).map fun b => (b.time, tuning b.frequency)

theorem requested_sets (tuning : ℚ → ℝ) (beats : ℕ → List Beat) (ks : List (Call S P C)) :
    requested (sets tuning beats) ks = (timed beats ks).map fun x => ⟨x.1, x.2.time, tuning x.2.frequency⟩ := by
  rw [requested, timed, List.map_flatMap]
  congr 1
  funext j
  rw [sets, List.map_map, List.map_map]
  rfl

variable {tuning : ℚ → ℝ} {sequence : ℕ → ℕ} {a b : Id}

theorem asked_sets (hab : a ≠ b) (bs : List Beat) : ∀ n,
    (RowExamples.asked (parts tuning a b sequence) (requestsFor tuning sequence n bs)).filterMap
      (fun x => if x.1 = a then x.2.parameter?.filter (fun r => r.name = "frequency") else none) =
    bs.map fun b => .change "frequency" ⟨tuning b.frequency, b.time, .immediate⟩ := by
  induction bs with
  | nil => intro n; rfl
  | cons x bs ih =>
    intro n
    have := ih (n + 1)
    unfold RowExamples.asked at this ⊢
    simp only [requestsFor, List.map_cons]
    rw [← this]
    simp [parts, RowExamples.set, MixedRequest.parameter?, ParameterRequest.name, Option.filter, hab.symm]

theorem asked_notes (hab : a ≠ b) (bs : List Beat) : ∀ n,
    (RowExamples.asked (parts tuning a b sequence) (requestsFor tuning sequence n bs)).filterMap
      (fun x => if x.1 = b then x.2.adsr? else none) =
    (bs.zipIdx n).map fun x => ⟨sequence x.2, x.1.time, .noteOn⟩ := by
  induction bs with
  | nil => intro n; rfl
  | cons x bs ih =>
    intro n
    have := ih (n + 1)
    unfold RowExamples.asked at this ⊢
    simp only [requestsFor, List.zipIdx_cons, List.map_cons]
    rw [← this]
    simp [parts, RowExamples.set, MixedRequest.adsr?, hab]

theorem asked_gain (bs : List Beat) : ∀ n, ∀ r,
    (a, MixedRequest.parameter r) ∈ RowExamples.asked (parts tuning a b sequence) (requestsFor tuning sequence n bs) →
    r.name ≠ "gain" := by
  induction bs with
  | nil => intro n r hr; cases hr
  | cons x bs ih =>
    intro n r hr
    have := ih (n + 1) r
    unfold RowExamples.asked at this hr
    simp only [requestsFor] at hr
    simp [parts, RowExamples.set] at hr this
    rcases hr with rfl | hr
    · simp [ParameterRequest.name]
    · obtain ⟨x, hx, y, hy, hy'⟩ := hr
      exact this x hx y hy hy'

end Metronome
end Rawdio
