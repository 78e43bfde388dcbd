import Verif.Lemmas.MetronomeExample
import Verif.Lemmas.PanSweep
import Verif.Props.Clicks
import Verif.Props.RowSessions

/-!
# What a metronome plays (C94)
-/

namespace Rawdio
namespace Metronome

open Processor Network Mixed Clicks AdsrSchedule

variable {N : Platform} {al : Int → Nat → Nat → Nat → Nat × Nat}

/-- C94: what the metronome plays at tempos up to 1200 beats a minute, when no turn of its loop comes later than the end of
what has been scheduled: a click starts at the frame of each beat, rises in 5 ms and falls to silence in 25 ms, and is a sine
that has taken the frequency of the beat within two frames of its start; and there is silence between them. Which beats are
scheduled is what C92 says. -/
theorem C94_metronome (hz : ∀ x, N.isZero x = true → x = 0) (ho : ∀ x, N.isOne x = true → x = 1) (mf mc sr : Nat)
    (hm : 0 < mf) (hmc : 2 ≤ mc) (hsr : 250 ≤ sr) (hle : sr ≤ 2 ^ 30) (hlen : mf * sr ≤ 2 ^ 33) (tuning : ℚ → ℝ)
    (htun : ∀ q, 0 < q → 0 < tuning q) (tempo : ℚ) (htempo : 0 < tempo) (htempo' : tempo ≤ 1200) (a b : Id) (hab : a ≠ b)
    (sequence : ℕ → ℕ) (hseq : StrictMono sequence) (turns : ℕ → List Int) (h0 : ∀ i, ∀ t ∈ turns i, 0 ≤ t)
    (hs : ∀ n, ((List.range n).flatMap turns).Pairwise (· ≤ ·)) (beats : ℕ → List Beat)
    (hbeats : ∀ i, beatsBefore tempo turns i = .ok (beats i))
    (prog : Nat → List (ApiCall MixedNode MixedRequest)) (hprog : session sr mf tuning a b sequence beats = .ok prog)
    (waiting ks : List (Call ℝ MixedNode MixedRequest)) (hks : ks ≠ []) (hv : ∀ k ∈ waiting ++ ks, k.Valid)
    (hdel : Delivered prog waiting ks)
    (hin : ∀ i, turns i ≠ [] → (framesIn (ks.take i) : ℚ) / sr * 2 ^ 32 ≤ reached ((List.range i).flatMap turns))
    (E : Processor ℝ MixedNode) (hE : calls (MixedNode.ops N al) (new sr mc mf) (waiting ++ ks) = .ok E) :
    ∃ ns frames gain frequency, Scheduled tempo ((List.range ks.length).flatMap turns) ns ∧
      List.Forall₂ (fun k g => AtFrame sr 0 (beat tempo k).time g) ns frames ∧
      (∀ F, (∀ g ∈ frames.head?, F < g) → gain F = 0) ∧
      Shapes gain (stageFrames (5 / 1000) sr) (stageFrames (25 / 1000) sr) frames ∧
      Pitches tuning tempo frequency (framesIn ks) ns frames ∧
      ∀ i k E1 o E2, (waiting ++ ks)[i]? = some k →
        calls (MixedNode.ops N al) (new sr mc mf) ((waiting ++ ks).take i) = .ok E1 →
        E1.process (MixedNode.ops N al) k.env k.commands k.input k.output = .ok (o, E2) →
        ∀ c f F, c < k.output.channelCount → f < k.output.frameCount →
          F = framesIn (ks.take (i - waiting.length)) + f →
          ((i < waiting.length ∨ 2 ≤ c) → o.sample? c f = some 0) ∧
          (waiting.length ≤ i → c < 2 → ∃ y, o.sample? c f = some y ∧
            |y - Real.sin (2 * Real.pi * Oscillator.cycles frequency sr (F + 1)) * gain F| ≤ |gain F| / 10 ^ 7) := by
  have hsr0 : 0 < sr := by omega
  have hfit := stages_fit hsr
  obtain ⟨es, y, e1, e2, e3⟩ := RowExamples.C94_row hz ho mf mc sr hm hsr0 (by omega) hlen (parts tuning a b sequence)
    (by simp [parts]) (by
      intro p hp
      simp only [parts, List.mem_cons, List.not_mem_nil, or_false] at hp
      rcases hp with rfl | rfl
      · refine ⟨by norm_num, by rw [Oscillator.makeSine_length]; decide, ?_⟩
        rw [List.getD_eq_getElem?_getD, Oscillator.makeSine_get _ _ _ (by decide)]
        simp
      · trivial) (by simp [parts, hab]) (by
      intro p hp
      simp only [parts, List.mem_cons, List.not_mem_nil, or_false] at hp
      rcases hp with rfl | rfl
      · exact ⟨Nat.zero_le _, hmc⟩
      · exact ⟨hmc, hmc⟩) (by simp [parts]) [] (by
      intro x hx
      simp [RowExamples.allRequests, RowExamples.asked, parts] at hx
      rcases hx with rfl | rfl | rfl <;> trivial) _ (by
      intro i x hx
      have : ∀ bs n, ∀ x ∈ requestsFor tuning sequence n bs, x.2.Proper := by
        intro bs
        induction bs with
        | nil => intro n x hx; cases hx
        | cons b bs ih =>
          intro n x hx
          simp only [requestsFor, List.mem_cons] at hx
          rcases hx with rfl | rfl | hx
          · trivial
          · trivial
          · exact ih _ x hx
      exact this _ _ x hx) prog hprog waiting ks hv hdel E hE
  -- the beats
  have h0' : ∀ n, ∀ t ∈ (List.range n).flatMap turns, 0 ≤ t := by
    intro n t ht
    obtain ⟨i, _, hi⟩ := List.mem_flatMap.mp ht
    exact h0 i t hi
  obtain ⟨ns, n1, n2⟩ := scheduled_all htempo (h0' ks.length) (hs ks.length) (run_all hbeats ks.length)
  have hL : (timed beats ks).map Prod.snd = ns.map (beat tempo) := (timed_beats beats ks).trans n1
  have hfirst : ∀ x ∈ timed beats ks, (x.1 : ℚ) / sr * 2 ^ 32 ≤ x.2.time := by
    intro x hx
    obtain ⟨j, _, hj⟩ := List.mem_flatMap.mp hx
    obtain ⟨z, hz', rfl⟩ := List.mem_map.mp hj
    obtain ⟨g1, g2⟩ := beats_after htempo hbeats (h0' (j + 1)) (hs (j + 1)) z hz'
    have g2' : (reached ((List.range j).flatMap turns) : ℚ) ≤ z.time := by exact_mod_cast g2
    exact (hin j g1).trans g2'
  have hgap : (timed beats ks).Pairwise fun x y => x.1 ≤ y.1 ∧ (x.2.time : ℚ) +
      ((stageFrames (5 / 1000) sr + stageFrames (25 / 1000) sr + 2 : ℕ) : ℚ) / sr * 2 ^ 32 ≤ y.2.time := by
    refine (timed_first beats ks).and ?_
    have : (ns.map (beat tempo)).Pairwise fun x y : Beat => (x.time : ℚ) +
      ((stageFrames (5 / 1000) sr + stageFrames (25 / 1000) sr + 2 : ℕ) : ℚ) / sr * 2 ^ 32 ≤ y.time := by
      rw [List.pairwise_map]
      exact n2.order.imp fun h => beat_gap htempo htempo' hsr0 hle (by omega) h
    rw [← hL, List.pairwise_map] at this
    exact this
  have hsorted : (timed beats ks).Pairwise fun x y => x.1 ≤ y.1 ∧ x.2.time ≤ y.2.time := by
    refine hgap.imp fun {x y} h => ⟨h.1, ?_⟩
    have h1 : (0 : ℚ) ≤ ((stageFrames (5 / 1000) sr + stageFrames (25 / 1000) sr + 2 : ℕ) : ℚ) / sr * 2 ^ 32 := by positivity
    have : (x.2.time : ℚ) ≤ y.2.time := by linarith [h.2]
    exact_mod_cast this
  have hdue : ∀ {α : Type} {x : ℕ × Beat} (w : α), x ∈ timed beats ks →
      (⟨x.1, x.2.time, w⟩ : Timed α).due sr = x.2.time := by
    intro α x w hx
    exact max_eq_left (hfirst x hx)
  have hspaced : ∀ {α : Type} (w : ℕ × Beat → α) (n : ℕ), n ≤ stageFrames (5 / 1000) sr + stageFrames (25 / 1000) sr + 2 →
      Clicks.Spaced sr n ((timed beats ks).map fun x => ⟨x.1, x.2.time, w x⟩) := by
    intro α w n hn
    unfold Clicks.Spaced
    rw [List.pairwise_map]
    refine List.Pairwise.imp_of_mem ?_ hgap
    intro x z hx hz' h
    rw [hdue _ hx, hdue _ hz']
    refine ⟨h.1, le_trans ?_ h.2⟩
    have : (n : ℚ) ≤ ((stageFrames (5 / 1000) sr + stageFrames (25 / 1000) sr + 2 : ℕ) : ℚ) := by exact_mod_cast hn
    gcongr
  -- the clicks
  have hzip : ((timed beats ks).zipIdx 3).map Prod.fst = timed beats ks := List.zipIdx_map_fst _ _
  obtain ⟨frames, gain, g1, g2, g3, g4⟩ := C94_clicks mf sr hsr0 hle (5 / 1000) (25 / 1000) sequence hseq (notes sequence beats)
    _ b (by
      intro j
      rw [List.filterMap_append, during, asked_notes hab, notes, List.map_map]
      congr 1
      split
      · simp [RowExamples.allRequests, RowExamples.asked, parts, settings, MixedRequest.adsr?, Timestamp.zero]
      · rfl) ks hks es e1 (by
      rw [requested_notes, List.map_map]
      have : ((timed beats ks).zipIdx 3).map (Timed.what ∘ fun x => (⟨x.1.1, x.1.2.time, sequence x.2⟩ : Timed ℕ)) =
          (List.range' 3 (timed beats ks).length).map sequence := by
        rw [← List.zipIdx_map_snd, List.map_map]
        rfl
      rw [this, List.pairwise_cons, List.pairwise_map]
      refine ⟨?_, (List.pairwise_lt_range' (s := 3)).imp fun h => hseq h⟩
      intro m hm'
      obtain ⟨i, hi, rfl⟩ := List.mem_map.mp hm'
      rw [List.mem_range'_1] at hi
      exact hseq (by omega)) (by
      intro x hx
      rw [requested_notes] at hx
      obtain ⟨z, hz', rfl⟩ := List.mem_map.mp hx
      have hz2 : z.1 ∈ timed beats ks := by
        rw [← hzip]
        exact List.mem_map_of_mem hz'
      have := hfirst z.1 hz2
      have h2 : (0 : ℚ) ≤ (z.1.1 : ℚ) / sr * 2 ^ 32 := by positivity
      have h3 : (0 : ℚ) ≤ z.1.2.time := by linarith
      exact_mod_cast h3) (by
      rw [requested_notes, List.pairwise_map]
      have := hsorted
      rw [← hzip, List.pairwise_map] at this
      exact this.imp fun h => h.2) (by
      rw [requested_notes]
      have := hspaced (fun _ => ()) _ (le_refl _)
      unfold Clicks.Spaced at this ⊢
      rw [← hzip, List.map_map, List.pairwise_map] at this
      rw [List.pairwise_map]
      exact this)
  have hframes : List.Forall₂ (fun x g => AtFrame sr x.1 x.2.time g) (timed beats ks) frames := by
    rw [requested_notes, List.forall₂_map_left_iff] at g1
    rw [← hzip, List.forall₂_map_left_iff]
    exact g1
  have hns : List.Forall₂ (fun k g => AtFrame sr 0 (beat tempo k).time g) ns frames := by
    have h1 : List.Forall₂ (fun (x : ℕ × Beat) g => AtFrame sr 0 x.2.time g) (timed beats ks) frames := by
      rw [List.forall₂_iff_get] at hframes ⊢
      refine ⟨hframes.1, fun i h1 h2 => ?_⟩
      obtain ⟨f1, f2, f3⟩ := hframes.2 i h1 h2
      refine ⟨Nat.zero_le _, .inr ?_, f3⟩
      rcases f2 with f2 | f2
      · rw [f2]
        have := hfirst _ (List.get_mem (timed beats ks) ⟨i, h1⟩)
        linarith
      · exact f2
    have h2 : List.Forall₂ (fun (x : Beat) g => AtFrame sr 0 x.time g) ((timed beats ks).map Prod.snd) frames := by
      rw [List.forall₂_map_left_iff]
      exact h1
    rw [hL, List.forall₂_map_left_iff] at h2
    exact h2
  -- the frequency
  obtain ⟨z, z1, z2⟩ := e2
  set freq := (FxKind.oscillator (tuning 440) 2 (Oscillator.makeSine Oscillator.tableSize 1)).track sr
    (es.filterMap (ChainEvent.seen a MixedRequest.parameter?)) a "frequency" with hfreq
  have hval : ∀ F < framesIn ks, ∃ t : Int, |(t : ℚ) - F / sr * 2 ^ 32| ≤ 3 / 2 ∧
      freq F = valueAt (tuning 440) ((timed beats ks).map fun x => ⟨x.1, x.2.time, tuning x.2.frequency⟩) F t := by
    intro F hF
    have := C94_sets (.oscillator (tuning 440) 2 (Oscillator.makeSine Oscillator.tableSize 1)) a "frequency" mf sr hsr0 hle
      (sets tuning beats) _ (by
        intro j
        rw [List.filterMap_append, during, asked_sets hab, sets, List.map_map]
        have : (if j = 0 then RowExamples.allRequests (parts tuning a b sequence) [] else []).filterMap
            (fun x => if x.1 = a then x.2.parameter?.filter (fun r => r.name = "frequency") else none) = [] := by
          split
          · simp [RowExamples.allRequests, RowExamples.asked, parts, hab.symm]
          · rfl
        rw [this]
        rfl) ks es e1 (by
        rw [requested_sets, List.pairwise_map]
        exact hsorted.imp fun h => h.2) (by
        rw [requested_sets]
        exact hspaced (fun x => tuning x.2.frequency) 2 (by omega)) F hF
    rw [requested_sets] at this
    exact this
  have hsets : List.Forall₂ (fun x g => AtFrame sr x.first x.time g)
      ((timed beats ks).map fun x => (⟨x.1, x.2.time, tuning x.2.frequency⟩ : Timed ℝ)) frames := by
    rw [List.forall₂_map_left_iff]
    exact hframes
  have hsorted' : ((timed beats ks).map fun x => (⟨x.1, x.2.time, tuning x.2.frequency⟩ : Timed ℝ)).Pairwise
      fun x y => x.first ≤ y.first ∧ x.time ≤ y.time := by
    rw [List.pairwise_map]
    exact hsorted
  have hpos : ∀ F < framesIn ks, 0 < freq F := by
    intro F hF
    obtain ⟨t, _, t2⟩ := hval F hF
    rw [t2, valueAt]
    have : ∀ l : List ℝ, (∀ x ∈ l, 0 < x) → 0 < l.getLastD (tuning 440) := by
      intro l hl
      rcases List.eq_nil_or_concat l with rfl | ⟨l, x, rfl⟩
      · exact htun 440 (by norm_num)
      · rw [List.concat_eq_append, List.getLastD_concat]
        exact hl x (by simp)
    apply this
    intro x hx
    obtain ⟨w, hw, rfl⟩ := List.mem_map.mp hx
    obtain ⟨v, hv', rfl⟩ := List.mem_map.mp (List.mem_filter.mp hw).1
    have hv2 : v.2 ∈ ns.map (beat tempo) := by
      rw [← hL]
      exact List.mem_map_of_mem hv'
    obtain ⟨k, _, hk⟩ := List.mem_map.mp hv2
    apply htun
    rw [← hk, beat]
    dsimp only
    split <;> norm_num
  refine ⟨ns, frames, gain, freq, n2, hns, g2, g3, ⟨?_, ?_⟩, ?_⟩
  · intro F hF hb
    obtain ⟨t, t1, t2⟩ := hval F hF
    rw [t2]
    exact (valueAt_within hsr0 hle hsorted' hsets t1).1 hb
  · intro j k g F hj hg hgF hF hb
    obtain ⟨t, t1, t2⟩ := hval F hF
    have hk : ((timed beats ks).map Prod.snd)[j]? = some (beat tempo k) := by
      rw [hL, List.getElem?_map, hj]
      rfl
    rw [List.getElem?_map, Option.map_eq_some_iff] at hk
    obtain ⟨x, hx, hx'⟩ := hk
    rw [t2, ← hx']
    exact (valueAt_within hsr0 hle hsorted' hsets t1).2 j ⟨x.1, x.2.time, tuning x.2.frequency⟩ g (by
      rw [List.getElem?_map, hx]
      rfl) hg hgF hb
  · intro i k E1 o E2 hik q1 q2 c f F hc hf hF
    have hy := e3 i k E1 o E2 hik q1 q2 c f F hc hf hF
    by_cases hi : i < waiting.length
    · rw [if_pos (.inl hi)] at hy
      exact ⟨fun _ => hy, fun h => absurd h (by omega)⟩
    have hFl : F < framesIn ks := by
      rw [List.getElem?_append_right (by omega)] at hik
      have hlt : i - waiting.length < ks.length := by
        by_contra hn; rw [List.getElem?_eq_none (by omega)] at hik; cases hik
      have e : ks = ks.take (i - waiting.length) ++ k :: ks.drop (i - waiting.length + 1) := by
        conv_lhs => rw [← List.take_append_drop (i - waiting.length) ks]
        rw [List.drop_eq_getElem_cons hlt]
        rw [List.getElem?_eq_getElem hlt] at hik
        injection hik with hik
        rw [hik]
      rw [hF]
      conv_rhs => rw [e]
      simp only [framesIn, List.map_append, List.sum_append, List.map_cons, List.sum_cons]
      omega
    have y1 := z2 c F hFl
    by_cases hc2 : 2 ≤ c
    · rw [if_neg (by omega)] at y1
      refine ⟨fun _ => ?_, fun _ h => absurd h (by omega)⟩
      rw [hy, y1]
      simp
    refine ⟨fun h => by rcases h with h | h <;> omega, fun _ _ => ?_⟩
    rw [if_neg (by omega)] at hy
    refine ⟨_, hy, ?_⟩
    rw [if_pos (by omega)] at y1
    have hgain : (FxKind.oscillator (tuning 440) 2 (Oscillator.makeSine Oscillator.tableSize 1)).track sr
        (es.filterMap (ChainEvent.seen a MixedRequest.parameter?)) a "gain" F = 1 := by
      rw [C87_untouched _ a "gain" mf sr _ ?_ ks es e1 F hFl]
      · rfl
      · intro j r hr
        rcases List.mem_append.mp hr with hr | hr
        · split at hr
          · simp [RowExamples.allRequests, RowExamples.asked, parts] at hr
          · cases hr
        · exact asked_gain (beats j) _ r hr
    have hosc : z c F = Oscillator.tableAt (Oscillator.makeSine 8192 1) (Oscillator.cycles freq sr (F + 1)) := by
      have := z1 (fun F hF => hpos F hF) c F hFl
      dsimp only at this
      rw [this, FxKind.heard, if_pos (by change c < 2; omega)]
      simp only [FxKind.effect]
      rw [hgain, mul_one]
      rfl
    have hs := OfflineExample.sine_near (Oscillator.cycles freq sr (F + 1))
    rw [y1]
    dsimp only
    rw [if_pos (show c < NodeKind.outputs _ by change c < 2; omega), g4 F hFl, hosc, ← sub_mul, abs_mul]
    have := mul_le_mul_of_nonneg_right hs (abs_nonneg (gain F))
    linarith

/-- C94: all process calls of such a session succeed, if the frequencies are multiples of an irrational number, whatever the
times of the turns. -/
theorem C94_metronome_runs (hz : ∀ x, N.isZero x = true → x = 0) (ho : ∀ x, N.isOne x = true → x = 1) (mf mc sr : Nat)
    (hm : 0 < mf) (hmc : 2 ≤ mc) (hsr : 0 < sr) (hsr' : sr < 2 ^ 32) (hlen : mf * sr ≤ 2 ^ 33) (u : ℝ) (hu : 0 < u)
    (hi : Irrational u) (tempo : ℚ) (htempo : 0 < tempo) (a b : Id) (hab : a ≠ b) (sequence : ℕ → ℕ)
    (turns : ℕ → List Int) :
    ∃ beats prog, (∀ i, beatsBefore tempo turns i = .ok (beats i)) ∧
      session sr mf (fun q => q * u) a b sequence beats = .ok prog ∧
      ∀ waiting ks : List (Call ℝ MixedNode MixedRequest), (∀ k ∈ waiting ++ ks, k.Valid) → Delivered prog waiting ks →
        ∃ E, calls (MixedNode.ops N al) (new sr mc mf) (waiting ++ ks) = .ok E := by
  choose beats hbeats using fun i => run_total htempo (turns i) (lastSequenceTime ((List.range i).flatMap turns))
  have hirr : Irrational (((440 : ℚ) : ℝ) * u) := hi.ratCast_mul (by norm_num)
  obtain ⟨prog, p1, p2⟩ := RowExamples.C94_runs (al := al) hz ho mf mc sr hm hsr hsr' hlen
    (parts (fun q => q * u) a b sequence) (by
      intro p hp
      simp only [parts, List.mem_cons, List.not_mem_nil, or_false] at hp
      rcases hp with rfl | rfl
      · refine ⟨⟨by norm_num, by rw [Oscillator.makeSine_length]; decide, ?_⟩, by positivity, fun n hn => ?_⟩
        · rw [List.getD_eq_getElem?_getD, Oscillator.makeSine_get _ _ _ (by decide)]
          simp
        · rintro ⟨k, hk⟩
          have h1 : (sr : ℝ) ≠ 0 := by exact_mod_cast hsr.ne'
          have h2 : (n : ℝ) ≠ 0 := by exact_mod_cast hn.ne'
          apply hirr
          refine ⟨k * sr / n, ?_⟩
          rw [div_eq_iff h1] at hk
          push_cast
          rw [div_eq_iff h2, ← hk]
          push_cast
          ring
      · exact ⟨trivial, trivial⟩) (by simp [parts, hab]) (by
      intro p hp
      simp only [parts, List.mem_cons, List.not_mem_nil, or_false] at hp
      rcases hp with rfl | rfl
      · exact ⟨Nat.zero_le _, hmc⟩
      · exact ⟨hmc, hmc⟩) (by simp [parts]) [] (by
      intro p hp r hr
      simp only [parts, List.mem_cons, List.not_mem_nil, or_false] at hp
      rcases hp with rfl | rfl
      · simp [RowExamples.allRequests, RowExamples.asked, parts, hab] at hr
      · simp [RowExamples.allRequests, RowExamples.asked, parts] at hr
        rcases hr with rfl | rfl | rfl <;> trivial) (during (fun q => q * u) sequence beats) (by
      intro i p hp r hr
      have hpos := frequency_pos htempo hbeats i
      have key : ∀ (bs : List Beat), (∀ b ∈ bs, 0 < b.frequency) → ∀ n, ∀ x ∈ requestsFor (fun q => q * u) sequence n bs,
          (∃ (q : ℚ) (t : Int), 0 < q ∧ x = (0, RowExamples.set "frequency" (q * u) t)) ∨
            ∃ e, x = (1, .adsr e) := by
        intro bs
        induction bs with
        | nil => intro _ n x hx; cases hx
        | cons c bs ih =>
          intro hc n x hx
          simp only [requestsFor, List.mem_cons] at hx
          rcases hx with rfl | rfl | hx
          · exact .inl ⟨_, _, hc c (by simp), rfl⟩
          · exact .inr ⟨_, rfl⟩
          · exact ih (fun b hb => hc b (by simp [hb])) _ x hx
      obtain ⟨x, hx, hx'⟩ := List.mem_filterMap.mp hr
      rw [Option.map_eq_some_iff] at hx'
      obtain ⟨p', hp', hpr⟩ := hx'
      simp only [parts, List.mem_cons, List.not_mem_nil, or_false] at hp
      rcases key _ hpos _ x hx with ⟨q, t, hq, rfl⟩ | ⟨e, rfl⟩
      · injection hp' with hp'
        subst hp'
        injection hpr with e1 e2
        subst e2
        rcases hp with rfl | rfl
        · refine .inr ⟨hirr, .inl ⟨q / 440, t, by positivity, ?_⟩⟩
          push_cast
          rw [← mul_assoc, div_mul_cancel₀ _ (by norm_num)]
        · exact absurd e1 hab
      · injection hp' with hp'
        subst hp'
        injection hpr with e1 e2
        subst e2
        rcases hp with rfl | rfl
        · exact absurd e1.symm hab
        · trivial) true
  exact ⟨beats, prog, hbeats, p1, p2⟩

/-- Turns before the first two process calls after the start, at a tempo of 120, with a factor of √2 for the frequencies: all
hypotheses hold, and the first beat is scheduled. -/
example : ∃ beats prog E, (∀ i, beatsBefore 120 (fun i => if i < 2 then [0] else []) i = .ok (beats i)) ∧
    session 44100 16 (fun q => q * √2) 1 2 id beats = .ok prog ∧ StrictMono (id : ℕ → ℕ) ∧
    (∀ n, ((List.range n).flatMap fun i => if i < 2 then [(0 : Int)] else []).Pairwise (· ≤ ·)) ∧
    (∀ k ∈ [mixedCall []] ++ [mixedCall (prog 0), mixedCall (prog 1)], k.Valid) ∧
    Delivered prog [mixedCall []] [mixedCall (prog 0), mixedCall (prog 1)] ∧
    (∀ i, (if i < 2 then [(0 : Int)] else []) ≠ [] →
      (framesIn ([mixedCall (prog 0), mixedCall (prog 1)].take i) : ℚ) / (44100 : ℕ) * 2 ^ 32 ≤
        reached ((List.range i).flatMap fun i => if i < 2 then [(0 : Int)] else [])) ∧
    calls (MixedNode.ops Fx.plain fun _ _ _ _ => (0, 0)) (new 44100 2 16)
      ([mixedCall []] ++ [mixedCall (prog 0), mixedCall (prog 1)]) = .ok E ∧
    ∀ ns, Scheduled 120 ((List.range 2).flatMap fun i => if i < 2 then [(0 : Int)] else []) ns → 0 ∈ ns := by
  obtain ⟨beats, prog, h1, h2, h3⟩ := C94_metronome_runs (N := Fx.plain) (al := fun _ _ _ _ => (0, 0)) (by simp [Fx.plain])
    (by simp [Fx.plain]) 16 2 44100 (by norm_num) (by norm_num) (by norm_num) (by norm_num) (by norm_num) (√2)
    (by positivity) irrational_sqrt_two 120 (by norm_num) 1 2 (by decide) id (fun i => if i < 2 then [0] else [])
  obtain ⟨v, d⟩ := RowExamples.threeCalls prog
  obtain ⟨E, hE⟩ := h3 _ _ v d
  have hh : horizon 0 = 143165579 := by
    rw [horizon, zero_add]
    apply Timestamp.roundHalfEven_eq_of_abs_lt
    rw [abs_lt, Timestamp.one]; norm_num
  refine ⟨beats, prog, E, h1, h2, strictMono_id, ?_, v, d, ?_, hE, ?_⟩
  · intro n
    have : ∀ t ∈ (List.range n).flatMap (fun i => if i < 2 then [(0 : Int)] else []), t = 0 := by
      intro t ht
      obtain ⟨i, _, hi⟩ := List.mem_flatMap.mp ht
      split at hi
      · simpa using hi
      · cases hi
    exact List.pairwise_of_forall_mem_list fun x hx y hy => by rw [this x hx, this y hy]
  · intro i hi
    match i with
    | 0 => simp [framesIn, reached]
    | 1 =>
      simp [framesIn, reached, mixedCall, Buf.frameCount, hh]
      norm_num
    | i + 2 => simp at hi
  · intro ns hns
    rw [hns.which]
    have h0 : (beat 120 0).time = 0 := by simp [beat, place, Timestamp.roundHalfEven]
    have hr : reached ((List.range 2).flatMap fun i => if i < 2 then [(0 : Int)] else []) = horizon 0 := by
      simp [List.range_succ, reached]
    rw [h0, hr, hh]
    refine ⟨by norm_num, ?_⟩
    intro t ht he
    simp [List.range_succ] at ht
    subst ht
    rw [hh] at he
    norm_num at he

end Metronome
end Rawdio
