import Verif.Lemmas.RecorderKeepsUp
import Verif.Props.Progress

/-!
# C95: recorders in an engine
-/

namespace Rawdio
open Processor Network

variable {S P C : Type}

namespace RecorderNode

theorem recordedFrames_split (schedule : List (Nat × Nat × RecordRequest)) (ch : Nat) {a b : Nat} (h : a ≤ b)
    (x : Nat → Nat → S) : ∃ rest, recordedFrames schedule ch b x = recordedFrames schedule ch a x ++ rest ∧
      ((∀ F, a ≤ F → F < b → isRecorded schedule F = false) → rest = []) := by
  obtain ⟨n, rfl⟩ := Nat.exists_eq_add_of_le h
  refine ⟨(((List.range n).map (a + ·)).filter (isRecorded schedule)).map fun F => (List.range ch).map fun c => x c F, ?_, ?_⟩
  · rw [recordedFrames, recordedFrames, List.range_add, List.filter_append, List.map_append]
  · intro hF
    rw [List.map_eq_nil_iff, List.filter_eq_nil_iff]
    intro F hm
    obtain ⟨k, hk, rfl⟩ := List.mem_map.mp hm
    rw [hF _ (by omega) (by have := List.mem_range.mp hk; omega)]
    simp

end RecorderNode

/-- C95: a recorder in an engine, with any nodes around it. Its requests take effect at their frames, wherever blocks and
process calls end, and what its program has got (what it has taken, and what it could take) are the first of the frames
between starts and stops of the signal that went into it, with nothing left out, doubled or changed. When notifications
are processed, less than 4096 of the frames that have been recorded by then are held back, and none if the recording has
stopped; frames after that come only with later notifications. -/
theorem C95_recorder [AddZeroClass S] (others : NodeOps S P C) (mf mc sr : Nat) (hm : 0 < mf) (hsr : 0 < sr)
    (hlen : mf * sr < 2 ^ 33) (program : Nat → List (ApiCall (WithRecorders S P) (WithRecorders.Request C)))
    (hP : Program program) (hp : Plain (made (program 0)) (links (program 0)) (input (program 0))) (i : Id)
    (ch first : Nat) (hmade : (RecorderNode.node i sr ch first).within .recorder ∈ made (program 0))
    (waiting ks : List (Call S (WithRecorders S P) (WithRecorders.Request C))) (hks : ks ≠ [])
    (hv : ∀ k ∈ waiting ++ ks, k.Valid) (hd : Delivered program waiting ks) (E : Processor S (WithRecorders S P))
    (hE : calls (WithRecorders.ops others) (new sr mc mf) (waiting ++ ks) = .ok E) :
    ∃ es sig schedule s x, ChainHistory mf sr (fun i => requests (program i)) ks es ∧
      Plays (WithRecorders.ops others) sr (made (program 0)) (links (program 0)) (input (program 0)) es
        (sessionInput true mc ks) sig ∧
      x = arriving (links (program 0)) (input (program 0)) (sessionInput true mc ks) sig i ∧
      RecordScheduled sr (WithRecorders.sent (fun i => requests (program i)) i ks) schedule ∧
      E.graph.graph.getNode i = some ⟨i, ch, 0, .recorder s⟩ ∧ sig i = Rawdio.silence ∧
      chainRun (WithRecorders.ops others) sr [(RecorderNode.node i sr ch first).within .recorder] es x =
        .ok (sig i, [⟨i, ch, 0, .recorder s⟩]) ∧
      (∃ rest, recordedFrames schedule ch (framesIn ks) x = s.got ++ rest) ∧
      ∀ m < ks.length,
        ((i, .recorder .notifications) ∈ requests (program m) →
          (recordedFrames schedule ch (framesIn (ks.take m)) x).length < s.got.length + 4096 ∧
          ((∀ F, F + 1 = framesIn (ks.take m) → isRecorded schedule F = false) →
            (recordedFrames schedule ch (framesIn (ks.take m)) x).length ≤ s.got.length) ∧
          ((∀ F, framesIn (ks.take m) ≤ F + 1 → F < framesIn ks → isRecorded schedule F = false) →
            s.got = recordedFrames schedule ch (framesIn ks) x)) ∧
        ((∀ l, m < l → l < ks.length → (i, .recorder .notifications) ∉ requests (program l)) →
          s.got.length ≤ (recordedFrames schedule ch (framesIn (ks.take m)) x).length) := by
  obtain ⟨es, sig, h1, h2, -⟩ := Network.states _ mf mc sr hm program hP hp waiting ks hv hd E hE
  obtain ⟨e, e1, e2⟩ := h2 _ hmade
  change chainRun _ sr [⟨i, ch, 0, .recorder ⟨ch, Recorder.new sr ch first, []⟩⟩] es
    (arriving (links (program 0)) (input (program 0)) (sessionInput true mc ks) sig i) = .ok (sig i, [e]) at e2
  obtain ⟨schedule, s, s1, s2, s3, s4, s5⟩ := RecorderNode.session hsr hm hlen others i first h1 _ _ e2
  have hn := e1 (List.length_pos_of_ne_nil hks)
  injection s2 with s2 _
  rw [s2] at hn e2
  refine ⟨es, sig, schedule, s, _, h1, fun d hd => ?_, rfl, s1, hn, s3, e2, s4, ?_⟩
  · obtain ⟨e, _, h⟩ := h2 d hd
    exact ⟨e, h⟩
  intro m hml
  obtain ⟨b1, b2⟩ := s5 m hml
  refine ⟨fun hin => ?_, b2⟩
  obtain ⟨c1, c2⟩ := b1 hin
  refine ⟨c1, c2, fun hF => ?_⟩
  have hle : framesIn (ks.take m) ≤ framesIn ks := by
    conv_rhs => rw [← List.take_append_drop m ks]
    rw [framesIn, framesIn, List.map_append, List.sum_append]
    omega
  by_cases h0 : framesIn (ks.take m) = 0
  · -- nothing is recorded at all
    have hnil : recordedFrames schedule ch (framesIn ks)
        (arriving (links (program 0)) (input (program 0)) (sessionInput true mc ks) sig i) = [] := by
      rw [recordedFrames, List.map_eq_nil_iff, List.filter_eq_nil_iff]
      intro F hFm
      rw [hF F (by omega) (List.mem_range.mp hFm)]
      simp
    obtain ⟨rest, hrest⟩ := s4
    rw [hnil] at hrest
    rw [hnil, (List.append_eq_nil_iff.mp hrest.symm).1]
  · have hlast := c2 fun F hFe => hF F (by omega) (by omega)
    obtain ⟨rest, hrest, hnil⟩ := RecorderNode.recordedFrames_split schedule ch hle
      (arriving (links (program 0)) (input (program 0)) (sessionInput true mc ks) sig i)
    rw [hnil fun F h1 h2 => hF F (by omega) h2, List.append_nil] at hrest
    obtain ⟨rest', hr'⟩ := s4
    have hlen' := congrArg List.length hr'
    rw [List.length_append] at hlen'
    rw [hrest] at hlen'
    have : rest' = [] := List.length_eq_zero_iff.mp (by omega)
    rw [this, List.append_nil] at hr'
    exact hr'.symm

/-- C95: all process calls of such a session succeed, if the program is careful (C79), the other nodes can be rendered,
the notifications of each recorder are processed before each process call after the first, with at most eight requests to
it in between, and process calls are not longer than 4096 frames or than the maximum of the engine: no recorder runs out
of buffers or of places in a channel. -/
theorem C95_keeps_up [AddZeroClass S] (others : NodeOps S P C) (mf mc sr : Nat) (hm : 0 < mf) (hsr : 0 < sr)
    (hsr' : sr ≤ 2 ^ 32) (hlen : mf * sr < 2 ^ 33) (I : Dsp P → Prop) (A : Id → C → Prop) (H : Healthy others mf sr I A)
    (program : Nat → List (ApiCall (WithRecorders S P) (WithRecorders.Request C))) (hP : Program program)
    (hc : ∀ n, Allowed (fun h c => h.Typed c ∧ h.Careful mc c) Holding.empty ((List.range n).flatMap program))
    (waiting ks : List (Call S (WithRecorders S P) (WithRecorders.Request C)))
    (hmade : ∀ d ∈ made (program 0),
      (∃ d0 : Dsp P, d = d0.within .other ∧ I d0 ∧
        ∀ m r, (d.id, r) ∈ requests (program m) → ∃ c, r = .other c ∧ A d.id c) ∨
      (∃ ch first, d = (RecorderNode.node d.id sr ch first).within .recorder ∧
        RecorderAttended (fun m => requests (program m)) d.id ks ∧
        ∀ m r, (d.id, r) ∈ requests (program m) → ∃ c, r = .recorder c))
    (hks : ks ≠ []) (hv : ∀ k ∈ waiting ++ ks, k.Valid) (hd : Delivered program waiting ks)
    (hl : ∀ k ∈ ks, 0 < k.output.frameCount ∧ k.output.frameCount ≤ mf ∧ k.output.frameCount ≤ 4096) :
    ∃ E, calls (WithRecorders.ops others) (new sr mc mf) (waiting ++ ks) = .ok E := by
  refine C86_succeeds _ mf mc sr hm program hP hc waiting ks hks hv hd ?_
  intro es hes d hdm x
  rcases hmade d hdm with ⟨d0, rfl, h0, hr⟩ | ⟨ch, first, hdr, ha, hr⟩
  · have hev := Sampler.history_events hm hes
    have hid : (d0.within (WithRecorders.other (S := S))).id = d0.id := rfl
    rw [hid] at hr
    obtain ⟨y, d', h1⟩ := H.chainRun (es.filterMap (ChainEvent.seen d0.id WithRecorders.Request.other?)) x h0 (by
      intro e he
      have := mem_seen he
      cases e with
      | change j c =>
        intro hj
        subst hj
        obtain ⟨_, r, hr2, hr1⟩ := this
        obtain ⟨m, hm'⟩ := hev _ hr1
        obtain ⟨c', rfl, hA⟩ := hr m r hm'
        injection hr2 with hr2
        subst hr2
        exact hA
      | block t n => exact hev _ this)
    refine ⟨_, (WithRecorders.embeds_other others).chainRun_ok es (fun r hre => ?_) h1⟩
    obtain ⟨m, hm'⟩ := hev _ hre
    obtain ⟨c', rfl, _⟩ := hr m r hm'
    rfl
  · rw [hdr]
    refine RecorderNode.keeps_up hsr hsr' hm hlen others d.id first hes x ha ?_ hl
    intro m c hmc
    obtain ⟨c', h⟩ := hr m _ hmc
    cases h

/-- C95: a recording from now on until a time that is not before the start of the session: the frames from the first
that is rendered after the request to start, to the one in which the time falls. -/
theorem C95_interval (sr : Nat) (hsr : 0 < sr) (hsr' : sr ≤ 2 ^ 31) (a b : Nat) (hab : a ≤ b) (t : Int) (ht : 0 ≤ t)
    (schedule : List (Nat × Nat × RecordRequest))
    (h : RecordScheduled sr [(a, ⟨0, true⟩), (b, ⟨t, false⟩)] schedule) (ch total : Nat) (x : Nat → Nat → S) :
    ∃ g, AtFrame sr b t g ∧ (t = 0 → g = b) ∧
      (∀ F, isRecorded schedule F = true ↔ a ≤ F ∧ F < g) ∧
      recordedFrames schedule ch total x = framesBetween ch a (min g total) x := by
  have hq : (0 : ℚ) < sr := by exact_mod_cast hsr
  have hq' : (sr : ℚ) ≤ 2 ^ 31 := by exact_mod_cast hsr'
  have hnow : ∀ c g, AtFrame sr c 0 g → g = c := by
    rintro c g ⟨h1, h2, h3⟩
    rcases h2 with h2 | h2
    · exact h2
    · rw [div_mul_eq_mul_div, div_le_iff₀ hq] at h2
      have : (g : ℚ) < 1 := by push_cast at h2; nlinarith
      have : g < 1 := by exact_mod_cast this
      omega
  have key : ∃ g, AtFrame sr b t g ∧ schedule = [(a, a, ⟨0, true⟩), (g, b, ⟨t, false⟩)] := by
    have hmem : ∀ x ∈ schedule, x.2 = (a, ⟨0, true⟩) ∨ x.2 = (b, ⟨t, false⟩) := by
      intro x hx
      have : x.2 ∈ (schedule.map fun x => x.2).filter fun y => y.2.time = x.2.2.time :=
        List.mem_filter.mpr ⟨List.mem_map_of_mem hx, by simp⟩
      rw [h.all] at this
      simpa using (List.mem_filter.mp this).1
    by_cases h0 : t = 0
    · subst h0
      have hall := h.all 0
      rw [List.filter_eq_self.mpr (by
        intro y hy
        obtain ⟨x, hx, rfl⟩ := List.mem_map.mp hy
        rcases hmem x hx with h | h <;> simp [h])] at hall
      simp only [List.filter_cons, List.filter_nil, decide_true, if_true] at hall
      obtain ⟨x, s1, rfl, hx, hs1⟩ := List.map_eq_cons_iff.mp hall
      obtain ⟨y, s2, rfl, hy, hs2⟩ := List.map_eq_cons_iff.mp hs1
      obtain rfl := List.map_eq_nil_iff.mp hs2
      have f1 := h.frames x (by simp)
      have f2 := h.frames y (by simp)
      obtain ⟨g1, x⟩ := x
      obtain ⟨g2, y⟩ := y
      subst hx hy
      obtain rfl : g1 = a := hnow _ _ f1
      exact ⟨g2, f2, rfl⟩
    · have ha := h.all 0
      have hb := h.all t
      simp only [List.filter_cons, List.filter_nil, decide_true, if_true, Ne.symm h0, h0, decide_false,
        Bool.false_eq_true, if_false] at ha hb
      -- one of each
      have hlen : schedule.length = 2 := by
        have e1 := congrArg List.length ha
        have e2 := congrArg List.length hb
        rw [List.filter_map, List.length_map, ← List.countP_eq_length_filter] at e1 e2
        rw [List.length_eq_countP_add_countP fun x => decide (x.2.2.time = 0)]
        have : schedule.countP (fun x => decide ¬ (decide (x.2.2.time = 0)) = true) =
            schedule.countP fun x => decide (x.2.2.time = t) := by
          apply List.countP_congr
          intro x hx
          rcases hmem x hx with h | h <;> simp [h, h0, Ne.symm h0]
        simp only [Function.comp_def, List.length_cons, List.length_nil] at e1 e2
        rw [e1, this, e2]
      obtain ⟨x, y, rfl⟩ := List.length_eq_two.mp hlen
      obtain ⟨g1, x⟩ := x
      obtain ⟨g2, y⟩ := y
      have f1 := h.frames (g1, x) (by simp)
      have f2 := h.frames (g2, y) (by simp)
      have ho := List.rel_of_pairwise_cons h.order (List.mem_singleton_self _)
      rcases hmem (g1, x) (by simp) with rfl | rfl
      · rcases hmem (g2, y) (by simp) with rfl | rfl
        · simp [h0, Ne.symm h0] at hb
        · obtain rfl : g1 = a := hnow _ _ f1
          exact ⟨g2, f2, rfl⟩
      · rcases hmem (g2, y) (by simp) with rfl | rfl
        · exfalso
          have := ho.2 (hab.trans f1.1)
          simp only at this
          omega
        · simp [h0, Ne.symm h0] at ha
  obtain ⟨g, hg, rfl⟩ := key
  have hag : a ≤ g := hab.trans hg.1
  have hrec : ∀ F, isRecorded [(a, a, ⟨0, true⟩), (g, b, ⟨t, false⟩)] F = true ↔ a ≤ F ∧ F < g := by
    intro F
    rw [isRecorded, recordedAt]
    by_cases h1 : a ≤ F
    · by_cases h2 : g ≤ F
      · simp [h1, h2]
      · simp [h1, h2]
        omega
    · have h2 : ¬ g ≤ F := by omega
      simp [h1, h2]
  refine ⟨g, hg, fun h0 => ?_, hrec, ?_⟩
  · subst h0; exact hnow _ _ hg
  · rw [recordedFrames, framesBetween]
    congr 1
    induction total with
    | zero => simp
    | succ n ih =>
      rw [List.range_succ, List.filter_append, ih]
      by_cases h1 : a ≤ n ∧ n < g
      · rw [List.filter_cons, if_pos ((hrec n).mpr h1), List.filter_nil, Nat.min_eq_right (by omega), Nat.min_eq_right (by omega),
          show n + 1 - a = (n - a) + 1 by omega, List.range'_concat]
        simp
        omega
      · rw [List.filter_cons, if_neg (fun h => h1 ((hrec n).mp h)), List.filter_nil, List.append_nil]
        congr 1
        omega

/-- A schedule of `C95_interval`: a start at frame 8 and a stop in frame 12. -/
example : RecordScheduled 44100 [(8, ⟨0, true⟩), (8, ⟨1200000, false⟩)]
    [(8, 8, ⟨0, true⟩), (12, 8, ⟨1200000, false⟩)] := by
  refine ⟨fun t => rfl, ?_, by simp⟩
  intro x hx
  simp only [List.mem_cons, List.not_mem_nil, or_false] at hx
  rcases hx with rfl | rfl
  · exact ⟨le_refl _, .inl rfl, by norm_num⟩
  · exact ⟨by norm_num, .inr (by norm_num), by norm_num⟩

end Rawdio
