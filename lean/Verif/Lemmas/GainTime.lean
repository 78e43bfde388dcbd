import Verif.Lemmas.Gain

/-! # The times of the frames of a session with a gain node -/

namespace Rawdio
namespace Gain

open RealtimeParameter

variable {S P C : Type}

theorem nearest_unique {F sr : Nat} (hsr : 0 < sr) (hlt : sr < 2 ^ 33) {now : Int}
    (h : NearestTime F sr now) : now = Timestamp.fromSamples F sr := by
  have h1 := h (Timestamp.fromSamples F sr)
  have h2 := Timestamp.fromSamples_error_lt F hsr hlt
  have e : ∀ u : Int, |(u : ℚ) / 2 ^ 32 - (F : ℚ) / sr| = |(u : ℚ) - (F : ℚ) / sr * Timestamp.one| / 2 ^ 32 := by
    intro u
    rw [← abs_of_pos (show (0 : ℚ) < 2 ^ 32 by norm_num), ← abs_div, abs_of_pos (show (0 : ℚ) < 2 ^ 32 by norm_num)]
    congr 1
    unfold Timestamp.one
    ring
  rw [e, e, div_le_div_iff_of_pos_right (by norm_num)] at h1
  have h3 := lt_of_le_of_lt h1 h2
  rw [abs_lt] at h2 h3
  have h4 : ((now - Timestamp.fromSamples F sr : Int) : ℚ) < 1 := by push_cast; linarith [h2.1, h3.2]
  have h5 : (-1 : ℚ) < ((now - Timestamp.fromSamples F sr : Int) : ℚ) := by push_cast; linarith [h2.2, h3.1]
  have h6 : now - Timestamp.fromSamples F sr < 1 := by exact_mod_cast h4
  have h7 : -1 < now - Timestamp.fromSamples F sr := by exact_mod_cast h5
  omega

theorem tiles_times (sr full : Nat) (now : Int) (tiles : List (Nat × Nat)) : ∀ a b, Tiles full a b tiles →
    ∀ m t, (frameTimes sr (tiles.map fun b => (Timestamp.incrementedBySamples now b.1 sr, b.2)))[m]? = some t →
    ∃ o i : Nat, o + i = a + m ∧ (m = 0 → o = a) ∧
      t = now + Timestamp.fromSamples o sr + Timestamp.fromSamples i sr := by
  induction tiles with
  | nil => intro a b _ m t h; simp [frameTimes] at h
  | cons x xs ih =>
    intro a b h m t hm
    obtain ⟨h1, h2, h3, h4, h5⟩ := h
    rw [List.map_cons, frameTimes_cons] at hm
    by_cases hx : m < x.2
    · rw [List.getElem?_append_left (by simpa using hx)] at hm
      simp only [List.getElem?_map, List.getElem?_range hx, Option.map_some, Option.some.injEq] at hm
      exact ⟨x.1, m, by omega, fun _ => h1, by rw [← hm]; rfl⟩
    · rw [List.getElem?_append_right (by simpa using hx)] at hm
      simp only [List.length_map, List.length_range] at hm
      obtain ⟨o, i, e1, _, e3⟩ := ih _ _ h5 _ t hm
      exact ⟨o, i, by omega, fun h0 => by omega, e3⟩

/-- The time of every frame of a call is nearly exact, and that of the first is as exact as possible. -/
theorem blocksOf_times {full sr first total : Nat} (hsr : 0 < sr) (hlt : sr < 2 ^ 33) {bs : List (Int × Nat)}
    (h : BlocksOf full sr first total bs) {m : Nat} {t : Int} (ht : (frameTimes sr bs)[m]? = some t) :
    0 ≤ t ∧ |(t : ℚ) - ((first + m : Nat) : ℚ) / sr * Timestamp.one| ≤ 3 / 2 ∧
      (m = 0 → t = Timestamp.fromSamples first sr) := by
  obtain ⟨now, tiles, h1, h2, rfl⟩ := h
  obtain ⟨o, i, e1, e2, e3⟩ := tiles_times sr full now tiles _ _ h2 m t ht
  obtain rfl := nearest_unique hsr hlt h1
  have p1 := Timestamp.fromSamples_nonneg first sr
  have p2 := Timestamp.fromSamples_nonneg o sr
  have p3 := Timestamp.fromSamples_nonneg i sr
  refine ⟨by omega, ?_, ?_⟩
  · have q1 := abs_le.mp (Timestamp.fromSamples_error first sr)
    have q2 := abs_le.mp (Timestamp.fromSamples_error o sr)
    have q3 := abs_le.mp (Timestamp.fromSamples_error i sr)
    have e : ((first + m : Nat) : ℚ) / sr * Timestamp.one = (first : ℚ) / sr * Timestamp.one +
        (o : ℚ) / sr * Timestamp.one + (i : ℚ) / sr * Timestamp.one := by
      rw [show first + m = first + (o + i) by omega]
      push_cast
      ring
    rw [e, e3, abs_le]
    push_cast
    constructor <;> linarith [q1.1, q1.2, q2.1, q2.2, q3.1, q3.2]
  · intro h0
    have ho := e2 h0
    have hi : i = 0 := by omega
    have z : Timestamp.fromSamples ((0 : Nat) : ℚ) sr = 0 := by
      simp [Timestamp.fromSamples, Timestamp.fromSeconds, Timestamp.roundHalfEven]
    rw [e3, ho, hi, z]
    omega

/-- The same for all frames of a session. -/
theorem history_times {mf sr : Nat} (hsr : 0 < sr) (hlt : sr < 2 ^ 33)
    {changes : Nat → List (ParameterChange ℝ)} (ks : List (Call S P C)) :
    ∀ {hist : List (List (ParameterChange ℝ) × List (Int × Nat))}, GainHistory mf sr changes ks hist →
    ∀ {m : Nat} {t : Int}, (frameTimes sr (hist.flatMap Prod.snd))[m]? = some t →
    0 ≤ t ∧ |(t : ℚ) - (m : ℚ) / sr * Timestamp.one| ≤ 3 / 2 := by
  induction ks using List.reverseRecOn with
  | nil =>
    intro hist h m t ht
    obtain rfl := List.length_eq_zero_iff.mp h.1
    simp [frameTimes] at ht
  | append_singleton ks k ih =>
    intro hist h m t ht
    obtain ⟨h1, h2⟩ := h
    rcases List.eq_nil_or_concat hist with rfl | ⟨hs, x, rfl⟩
    · simp at h1
    · rw [List.concat_eq_append] at *
      have hl : hs.length = ks.length := by simpa using h1
      have hx := h2 ks.length k x (by simp) (by rw [← hl]; simp)
      have hpre : GainHistory mf sr changes ks hs := by
        refine ⟨hl, ?_⟩
        intro i k' h' hk hh
        have hi : i < ks.length := by
          by_contra hn; rw [List.getElem?_eq_none (by omega)] at hk; cases hk
        have := h2 i k' h' (by rw [List.getElem?_append_left hi]; exact hk)
          (by rw [List.getElem?_append_left (by omega)]; exact hh)
        rwa [List.take_append_of_le_length hi.le] at this
      have hfr := history_frames ks hpre
      rw [List.flatMap_append, frameTimes_append] at ht
      by_cases hm : m < framesIn ks
      · rw [List.getElem?_append_left (by omega)] at ht
        exact ih hpre ht
      · rw [List.getElem?_append_right (by omega), hfr] at ht
        have hb := hx.2
        rw [List.take_append_of_le_length (le_refl _), List.take_length] at hb
        have := blocksOf_times hsr hlt hb (by simpa using ht)
        rw [show framesIn ks + (m - framesIn ks) = m by omega] at this
        exact ⟨this.1, this.2.1⟩

/-- Without requests the values are those of the blocks. -/
theorem gainValues_quiet (sr : Nat) (hist : List (List (ParameterChange ℝ) × List (Int × Nat))) :
    ∀ p, (∀ h ∈ hist, h.1 = []) → gainValues sr p hist = processAll realArith sr p (hist.flatMap Prod.snd) := by
  induction hist with
  | nil => intro p _; rfl
  | cons h hs ih =>
    intro p hq
    rw [List.flatMap_cons, processAll_append]
    simp only [gainValues, hq h (by simp), List.foldl_nil, ih _ (fun h' hh => hq h' (by simp [hh]))]

theorem new_static (a : ℝ) : isStatic realArith (new realArith a) = true := by
  simp [isStatic, new, realArith, relativeEq]

theorem processAll_new (a : ℝ) (sr : Nat) (bs : List (Int × Nat)) :
    (processAll realArith sr (new realArith a) bs).2 = new realArith a ∧
    ∀ v ∈ (processAll realArith sr (new realArith a) bs).1, v = a := by
  induction bs with
  | nil => exact ⟨rfl, fun v hv => by cases hv⟩
  | cons b bs ih =>
    have : process realArith (new realArith a) b.1 b.2 sr = (List.replicate b.2 a, new realArith a) := by
      unfold process
      rw [if_pos (new_static a)]
      rfl
    simp only [processAll, this]
    refine ⟨ih.1, ?_⟩
    intro v hv
    rcases List.mem_append.mp hv with hv | hv
    · exact (List.mem_replicate.mp hv).2
    · exact ih.2 v hv

/-- Times that are nearly exact are in order. -/
theorem times_sorted {sr F : Nat} (hsr : 0 < sr) (hle : sr ≤ 2 ^ 30) {ts : List Int}
    (h : ∀ (m : Nat) (t : Int), ts[m]? = some t → 0 ≤ t ∧ |(t : ℚ) - ((F + m : Nat) : ℚ) / sr * Timestamp.one| ≤ 3 / 2) :
    (0 :: ts).Pairwise (· ≤ ·) := by
  rw [List.pairwise_cons]
  constructor
  · intro t ht
    obtain ⟨m, hm⟩ := List.mem_iff_getElem?.mp ht
    exact (h m t hm).1
  · rw [List.pairwise_iff_getElem]
    intro i j hi hj hij
    have h1 := abs_le.mp (h i _ (List.getElem?_eq_getElem hi)).2
    have h2 := abs_le.mp (h j _ (List.getElem?_eq_getElem hj)).2
    have hp : (0 : ℚ) < sr := by exact_mod_cast hsr
    have hu : (4 : ℚ) ≤ 1 / sr * Timestamp.one := by
      unfold Timestamp.one
      rw [div_mul_eq_mul_div, le_div_iff₀ hp]
      have : (sr : ℚ) ≤ 2 ^ 30 := by exact_mod_cast hle
      linarith
    have h3 : ((F + i : Nat) : ℚ) / sr * Timestamp.one + 1 / sr * Timestamp.one ≤
        ((F + j : Nat) : ℚ) / sr * Timestamp.one := by
      rw [← add_mul, ← add_div]
      apply mul_le_mul_of_nonneg_right _ (Timestamp.one_pos.le)
      apply div_le_div_of_nonneg_right _ hp.le
      exact_mod_cast (by omega : F + i + 1 ≤ F + j)
    have : (ts[i] : ℚ) ≤ ts[j] := by linarith [h1.2, h2.1]
    exact_mod_cast this

open ParameterChange in
/-- One immediate change. -/
theorem one_change (a : ℝ) {sr : Nat} (v : ℝ) (e : Int) (bs : List (Int × Nat))
    (hs : (0 :: frameTimes sr bs).Pairwise (· ≤ ·)) {j : Nat} {t : Int} (hj : (frameTimes sr bs)[j]? = some t) :
    (processAll realArith sr ((new realArith a).addChange ⟨v, e, .immediate⟩) bs).1[j]? =
      some (if e ≤ t then v else a) := by
  have hc : (new realArith a).addChange ⟨v, e, .immediate⟩ =
      (actAll realArith ⟨a, min v a, max v a⟩ sr (new realArith a) [.request v e .immediate]).2 := by
    simp [actAll, act, ParameterRange.clamp]
  have hch : ((new realArith a).addChange ⟨v, e, .immediate⟩).changes = [⟨v, e, .immediate⟩] := by
    simp [addChange, new]
  have hone : ∀ n ts, OnePerFrame [(⟨v, e, .immediate⟩ : ParameterChange ℝ)] n ts := by
    intro n ts
    induction ts generalizing n with
    | nil => trivial
    | cons t ts ih =>
      refine ⟨?_, ih _⟩
      have : (ended [(⟨v, e, .immediate⟩ : ParameterChange ℝ)] t).length ≤ 1 := List.length_filter_le _ _
      omega
  have := C18_immediate_partial realArith ⟨a, min v a, max v a⟩ sr [.request v e .immediate]
    (by intro v e m h; simp only [List.mem_singleton, ParameterAction.request.injEq] at h; exact h.2.2) bs
    (by simpa [ParameterAction.blocks, frameTimes] using hs) _ hc (by rw [hch]; exact hone _ _) j t hj
  rw [this, hch]
  by_cases h : e ≤ t
  · simp [ended, h, lastValue]
  · simp [ended, h, lastValue, addChange, new]

theorem framesIn_take {S P C : Type} (ks : List (Call S P C)) (i : Nat) : framesIn (ks.take i) ≤ framesIn ks := by
  have : framesIn ks = framesIn (ks.take i) + framesIn (ks.drop i) := by
    unfold framesIn
    rw [← List.sum_append, ← List.map_append, List.take_append_drop]
  omega

theorem history_take {mf sr : Nat} {changes : Nat → List (ParameterChange ℝ)} {ks : List (Call S P C)}
    {hist : List (List (ParameterChange ℝ) × List (Int × Nat))} (h : GainHistory mf sr changes ks hist) (i : Nat) :
    GainHistory mf sr changes (ks.take i) (hist.take i) := by
  obtain ⟨h1, h2⟩ := h
  refine ⟨by simp [h1], ?_⟩
  intro j k x hk hx
  rw [List.getElem?_take] at hk hx
  split at hk
  · rename_i hj
    rw [if_pos hj] at hx
    have := h2 j k x hk hx
    rwa [List.take_take, min_eq_left hj.le]
  · cases hk

/-- The value of a parameter at frame `F` of a session in which one immediate change, to `v` at time `e`, is requested before
call `i`, in terms of the time of the frame. -/
theorem one_change_values (a : ℝ) {mf sr : Nat} (hsr : 0 < sr) (hle : sr ≤ 2 ^ 30) {i : Nat} {v : ℝ} {e : Int}
    {ks : List (Call S P C)} {hist : List (List (ParameterChange ℝ) × List (Int × Nat))}
    (h : GainHistory mf sr (onlyAt i ⟨v, e, .immediate⟩) ks hist) {F : Nat} (hF : F < framesIn ks) :
    ∃ t, (frameTimes sr (hist.flatMap Prod.snd))[F]? = some t ∧
      (gainValues sr (new realArith a) hist).1.getD F 0 =
        if framesIn (ks.take i) ≤ F ∧ i < ks.length ∧ e ≤ t then v else a := by
  have hfr := history_frames _ h
  have hlt : F < (frameTimes sr (hist.flatMap Prod.snd)).length := by omega
  have hch : ∀ j x, hist[j]? = some x → x.1 = onlyAt i ⟨v, e, .immediate⟩ j := by
    intro j x hx
    have hj : j < ks.length := by
      rw [← h.1]; by_contra hn; rw [List.getElem?_eq_none (by omega)] at hx; cases hx
    exact (h.2 j _ x (List.getElem?_eq_getElem hj) hx).1
  have hquiet : ∀ x ∈ hist.take i, x.1 = [] := by
    intro x hx
    obtain ⟨j, hj⟩ := List.mem_iff_getElem?.mp hx
    rw [List.getElem?_take] at hj
    split at hj
    · rename_i hji
      rw [hch j x hj]
      simp only [onlyAt, if_neg (by omega : ¬ j = i)]
    · cases hj
  have hq := gainValues_quiet sr (hist.take i) (new realArith a) hquiet
  obtain ⟨hi1, hi2⟩ := processAll_new a sr ((hist.take i).flatMap Prod.snd)
  have hlen : (processAll realArith sr (new realArith a) ((hist.take i).flatMap Prod.snd)).1.length =
      framesIn (ks.take i) := by
    rw [processAll_length, history_frames _ (history_take h i)]
  have hones : ∀ F, F < framesIn (ks.take i) →
      (processAll realArith sr (new realArith a) ((hist.take i).flatMap Prod.snd)).1.getD F 0 = a := by
    intro F hF
    rw [List.getD_eq_getElem?_getD, List.getElem?_eq_getElem (by omega)]
    exact hi2 _ (List.getElem_mem _)
  refine ⟨_, List.getElem?_eq_getElem hlt, ?_⟩
  by_cases hi : i < ks.length
  · have hhl := h.1
    have hsplit : hist = hist.take i ++ hist.drop i := (List.take_append_drop i hist).symm
    have hdrop : hist.drop i = hist[i]'(by omega) :: hist.drop (i + 1) := List.drop_eq_getElem_cons (by omega)
    have hhead : (hist[i]'(by omega)).1 = [⟨v, e, .immediate⟩] := by
      rw [hch i _ (List.getElem?_eq_getElem (by omega))]; simp [onlyAt]
    have htail : ∀ x ∈ hist.drop (i + 1), x.1 = [] := by
      intro x hx
      obtain ⟨j, hj⟩ := List.mem_iff_getElem?.mp hx
      rw [List.getElem?_drop] at hj
      rw [hch _ x hj]
      simp only [onlyAt, if_neg (by omega : ¬ i + 1 + j = i)]
    have hvals : gainValues sr (new realArith a) hist =
        ((processAll realArith sr (new realArith a) ((hist.take i).flatMap Prod.snd)).1 ++
          (processAll realArith sr ((new realArith a).addChange ⟨v, e, .immediate⟩) ((hist.drop i).flatMap Prod.snd)).1,
        (processAll realArith sr ((new realArith a).addChange ⟨v, e, .immediate⟩) ((hist.drop i).flatMap Prod.snd)).2) := by
      conv_lhs => rw [hsplit]
      rw [gainValues_append, hq, hi1, hdrop, List.flatMap_cons, processAll_append]
      simp only [gainValues, hhead, List.foldl_cons, List.foldl_nil, gainValues_quiet sr _ _ htail]
    have htimes : frameTimes sr (hist.flatMap Prod.snd) = frameTimes sr ((hist.take i).flatMap Prod.snd) ++
        frameTimes sr ((hist.drop i).flatMap Prod.snd) := by
      rw [← frameTimes_append, ← List.flatMap_append, List.take_append_drop]
    have hlen2 : (frameTimes sr ((hist.take i).flatMap Prod.snd)).length = framesIn (ks.take i) :=
      history_frames _ (history_take h i)
    rw [hvals]
    by_cases hF1 : F < framesIn (ks.take i)
    · rw [getD_left (by omega), hones F hF1, if_neg (by omega)]
    · rw [getD_right (by omega), hlen]
      have hj : (frameTimes sr ((hist.drop i).flatMap Prod.snd))[F - framesIn (ks.take i)]? =
          some (frameTimes sr (hist.flatMap Prod.snd))[F] := by
        rw [← List.getElem?_eq_getElem hlt, htimes, List.getElem?_append_right (by omega), hlen2]
      have hsort : (0 :: frameTimes sr ((hist.drop i).flatMap Prod.snd)).Pairwise (· ≤ ·) := by
        refine times_sorted (F := framesIn (ks.take i)) hsr hle ?_
        intro m t ht
        have := history_times (m := framesIn (ks.take i) + m) (t := t) hsr (by omega) ks h (by
          rw [htimes, List.getElem?_append_right (by omega), hlen2, Nat.add_sub_cancel_left]
          exact ht)
        exact this
      rw [List.getD_eq_getElem?_getD, one_change a v e _ hsort hj, Option.getD_some]
      by_cases het : e ≤ (frameTimes sr (hist.flatMap Prod.snd))[F]
      · rw [if_pos het, if_pos ⟨by omega, hi, het⟩]
      · rw [if_neg het, if_neg (fun hh => het hh.2.2)]
  · have hall : hist.take i = hist := List.take_of_length_le (by rw [h.1]; omega)
    have hks : ks.take i = ks := List.take_of_length_le (by omega)
    rw [hall] at hq hones
    rw [hks] at hones
    rw [hq, hones F hF, if_neg (by omega)]

theorem one_change_session {mf sr : Nat} (hsr : 0 < sr) (hle : sr ≤ 2 ^ 30) {i : Nat} {v : ℝ} {e : Int}
    {ks : List (Call S P C)} {hist : List (List (ParameterChange ℝ) × List (Int × Nat))}
    (h : GainHistory mf sr (onlyAt i ⟨v, e, .immediate⟩) ks hist) {F : Nat} (hF : F < framesIn ks) :
    ∃ t, (frameTimes sr (hist.flatMap Prod.snd))[F]? = some t ∧
      (gainValues sr initial hist).1.getD F 0 =
        if framesIn (ks.take i) ≤ F ∧ i < ks.length ∧ e ≤ t then v else 1 :=
  one_change_values 1 hsr hle h hF

/-- The first frame of a call has the timestamp nearest to its time. -/
theorem history_first {mf sr : Nat} (hsr : 0 < sr) (hlt : sr < 2 ^ 33)
    {changes : Nat → List (ParameterChange ℝ)} {ks : List (Call S P C)} {k : Call S P C}
    {hist : List (List (ParameterChange ℝ) × List (Int × Nat))} (h : GainHistory mf sr changes (ks ++ [k]) hist)
    (hk : 0 < k.output.frameCount) {t : Int}
    (ht : (frameTimes sr (hist.flatMap Prod.snd))[framesIn ks + 0]? = some t) :
    t = Timestamp.fromSamples (framesIn ks) sr := by
  have h0 := history_take h ks.length
  rw [List.take_append_of_le_length (le_refl _), List.take_length] at h0
  have hl : ks.length < hist.length := by rw [h.1]; simp
  have hdrop : hist.drop ks.length = [hist[ks.length]] := by
    rw [List.drop_eq_getElem_cons hl, List.drop_of_length_le (by rw [h.1]; simp)]
  have hb := (h.2 ks.length k _ (by simp) (List.getElem?_eq_getElem hl)).2
  rw [List.take_append_of_le_length (le_refl _), List.take_length] at hb
  rw [← List.take_append_drop ks.length hist, List.flatMap_append, frameTimes_append,
    List.getElem?_append_right (by rw [history_frames _ h0]; omega), history_frames _ h0, hdrop,
    Nat.add_sub_cancel_left] at ht
  exact (blocksOf_times hsr hlt hb (by simpa using ht)).2.2 rfl

/-- A call that fits into one block is one block. -/
theorem blocksOf_one {full sr first total : Nat} (hsr : 0 < sr) (hlt : sr < 2 ^ 33) (h0 : 0 < total)
    (hf : total ≤ full) {bs : List (Int × Nat)} (h : BlocksOf full sr first total bs) :
    bs = [(Timestamp.fromSamples first sr, total)] := by
  obtain ⟨now, tiles, h1, h2, rfl⟩ := h
  obtain rfl := nearest_unique hsr hlt h1
  match tiles with
  | [] => simp only [Tiles] at h2; omega
  | (o, n) :: rest =>
    obtain ⟨rfl, h3, h4, h5, h6⟩ := h2
    have h7 := (tiles_length sr full 0 rest _ _ h6).1
    have hn : n = total := by omega
    subst hn
    match rest with
    | [] =>
      simp [Timestamp.incrementedBySamples, Timestamp.fromSamples, Timestamp.fromSeconds, Timestamp.roundHalfEven]
    | (o', n') :: rest' =>
      obtain ⟨_, h8, _, _, h9⟩ := h6
      have := (tiles_length sr full 0 rest' _ _ h9).1
      omega

/-- The times of the frames of the last call, if it fits into one block. -/
theorem history_one {mf sr : Nat} (hsr : 0 < sr) (hlt : sr < 2 ^ 33)
    {changes : Nat → List (ParameterChange ℝ)} {ks : List (Call S P C)} {k : Call S P C}
    {hist : List (List (ParameterChange ℝ) × List (Int × Nat))} (h : GainHistory mf sr changes (ks ++ [k]) hist)
    (hk : k.output.frameCount ≤ mf) {m : Nat} (hm : m < k.output.frameCount) :
    (frameTimes sr (hist.flatMap Prod.snd))[framesIn ks + m]? =
      some (Timestamp.fromSamples (framesIn ks) sr + Timestamp.fromSamples m sr) := by
  have h0 := history_take h ks.length
  rw [List.take_append_of_le_length (le_refl _), List.take_length] at h0
  have hl : ks.length < hist.length := by rw [h.1]; simp
  have hdrop : hist.drop ks.length = [hist[ks.length]] := by
    rw [List.drop_eq_getElem_cons hl, List.drop_of_length_le (by rw [h.1]; simp)]
  have hb := (h.2 ks.length k _ (by simp) (List.getElem?_eq_getElem hl)).2
  rw [List.take_append_of_le_length (le_refl _), List.take_length] at hb
  rw [← List.take_append_drop ks.length hist, List.flatMap_append, frameTimes_append,
    List.getElem?_append_right (by rw [history_frames _ h0]; omega), history_frames _ h0, hdrop,
    Nat.add_sub_cancel_left, List.flatMap_singleton, blocksOf_one hsr hlt (by omega) hk hb, frameTimes_one,
    List.getElem?_map, List.getElem?_range hm]
  rfl

end Gain
end Rawdio
