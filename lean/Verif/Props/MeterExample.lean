import Verif.Lemmas.MeterExample
import Verif.Props.MeterNode
import Verif.Props.MeterSignal

/-!
# C101: the example with a meter
-/

namespace Rawdio
namespace MeterExample

open Processor Network

variable {N : Platform} {al : Int → Nat → Nat → Nat → Nat × Nat}

/-- A new meter. -/
theorem meter_ok (sr : Nat) (hsr : 0 < sr) (e : Id) : ∃ m, MeterNode.make sr e 2 0 300000000 2 = .ok m ∧ m.id = e ∧
    m.inputCount = 2 ∧ m.outputCount = 2 := by
  obtain ⟨v, h, _⟩ := EnvelopeNode.new_ok sr 2 0 300000000 2 hsr (by norm_num)
  exact ⟨_, by rw [MeterNode.make, h]; rfl, rfl, rfl, rfl⟩

/-- C101: what `examples/src/bin/meter.rs` plays and reports, for any file of at least 100 frames: on two channels the
file, once, fading out from beginning to end; and twice a second the highest level of what is played since the last
report. What the program has taken, what it could take and what is on the way to it are all reports, in order, and it has
taken those made before its last pass. -/
theorem C101_meter_example (hz : ∀ x, N.isZero x = true → x = 0) (ho : ∀ x, N.isOne x = true → x = 1) (mf mc sr : Nat)
    (hm : 0 < mf) (hmc : 2 ≤ mc) (hsr : 0 < sr) (hle : sr ≤ 2 ^ 28) (hmf : mf * sr ≤ 2 ^ 33) (sample : Grid ℝ)
    (hfr : 100 ≤ sample.frames) (fade : Fade ℝ) (hL : 0 < fade.values.length) (a b e : Id) (hab : a ≠ b) (hae : a ≠ e)
    (hbe : b ≠ e) (n : Nat) (passes : Nat → Nat) (prog : Nat → List Api)
    (hprog : program sr mf sample fade a b e n passes = .ok prog)
    (waiting ks : List (Call ℝ (WithMeters MixedNode) (WithMeters.Request MixedRequest))) (hks : ks ≠ [])
    (hv : ∀ k ∈ waiting ++ ks, k.Valid) (hd : Delivered prog waiting ks) (hst : meter.Steady sr (sessionBlocks mf ks))
    (hlen : (Sampler.blocksIn mf ks + 2) * sr ≤ 2 ^ 32) (E : Processor ℝ (WithMeters MixedNode))
    (hE : calls (WithMeters.ops (MixedNode.ops N al)) (new sr mc mf) (waiting ++ ks) = .ok E) :
    ∃ s x, (∀ c < 2, ∀ F < framesIn ks,
        |x c F - Sampler.sampleFrame sample c F * fadeLevel sample.frames F| ≤
          |Sampler.sampleFrame sample c F| * (10 / sample.frames + sample.frames / 2 ^ 50)) ∧
      (∀ i k E1 o E2, (waiting ++ ks)[i]? = some k →
        calls (WithMeters.ops (MixedNode.ops N al)) (new sr mc mf) ((waiting ++ ks).take i) = .ok E1 →
        E1.process (WithMeters.ops (MixedNode.ops N al)) k.env k.commands k.input k.output = .ok (o, E2) →
        ∀ c f F, c < k.output.channelCount → f < k.output.frameCount →
          F = framesIn (ks.take (i - waiting.length)) + f →
          o.sample? c f = some (if i < waiting.length ∨ 2 ≤ c then 0 else x c F)) ∧
      E.graph.graph.getNode e = some ⟨e, 2, 2, .meter s⟩ ∧
      s.taken ++ s.node.notifications ++ s.node.channel = meter.reports sr (sessionBlocks mf ks) x ∧
      ∀ l < ks.length, passes l ≠ 0 → meter.reports sr (sessionBlocks mf (ks.take l)) x <+: s.taken := by
  have hlt : sr < 2 ^ 32 := by omega
  have hlt0 := hlt
  obtain ⟨ds, s1, s2, s3, s4⟩ := NodeKind.make_ok (sr := sr) hm a (.sampler sample fade) hL
  obtain ⟨dg, g1, g2, g3, g4⟩ := NodeKind.make_ok (sr := sr) hm b (.effect (.gain 2)) trivial
  obtain ⟨dm, m1, m2, m3, m4⟩ := meter_ok sr hsr e
  have hp : program sr mf sample fade a b e n passes =
      .ok (allCalls (fromDuration (RowExamples.duration sample.frames sr)) n ds dg dm passes) := by
    rw [program, s1, g1, m1]
    rfl
  rw [hp] at hprog
  cases hprog
  have hsg : ds.id ≠ dg.id := by rw [s2, g2]; exact hab
  have hsm : ds.id ≠ dm.id := by rw [s2, m2]; exact hae
  have hgm : dg.id ≠ dm.id := by rw [g2, m2]; exact hbe
  obtain ⟨es, sig, st, x, h1, h2, hx, h3, h4, h5, h6, h7⟩ := C100_meter (MixedNode.ops N al) mf mc sr hm hsr _
    (calls_program hsg hsm hgm) (calls_plain hsg hsm hgm) e meter (by norm_num [meter]) (by norm_num [meter]) dm m1
    (by rw [calls_made]; simp) waiting ks hks hv hd hst E hE
  rw [calls_made, calls_links, calls_input] at h2
  rw [calls_links, calls_input] at hx
  rw [calls_output] at h7
  obtain ⟨d1, r1⟩ := h2 (ds.within .other) (by simp)
  obtain ⟨d2, r2⟩ := h2 (dg.within .other) (by simp)
  have hi1 : (ds.within (WithMeters.other (P := MixedNode))).id = a := s2
  have hi2 : (dg.within (WithMeters.other (P := MixedNode))).id = b := g2
  rw [hi1] at r1
  rw [hi2] at r2
  have k1 := node_makes (k := .sampler sample fade) hz ho hsr hlt hm hmf hL s1 s2 h1 (by
    intro j y hy
    rw [← s2, seen_sampler hsg] at hy
    split at hy
    · rw [List.mem_singleton] at hy
      subst hy
      intro _ _ h; cases h
    · cases hy) r1
  have k2 := node_makes (k := .effect (.gain 2)) hz ho hsr hlt hm hmf trivial g1 g2 h1 (by
    intro j y hy
    rw [← g2, seen_gain hsg] at hy
    split at hy
    · simp only [List.mem_cons, List.not_mem_nil, or_false] at hy
      rcases hy with rfl | rfl <;> trivial
    · cases hy) r2
  have q1 := history_seen (P' := MixedNode) a (WithMeters.Request.other? (C := MixedRequest)) h1
  have q2 := history_seen (P' := MixedNode) b (WithMeters.Request.other? (C := MixedRequest)) h1
  have e1 : ∀ i, seenBy a (WithMeters.Request.other? (C := MixedRequest))
      (requests (allCalls (fromDuration (RowExamples.duration sample.frames sr)) n ds dg dm passes i)) =
        if i = 0 then [(a, .sampler (.startNow n))] else [] := by
    intro i
    have := seen_sampler (length := fromDuration (RowExamples.duration sample.frames sr)) (n := n) (m := dm)
      (passes := passes) hsg i
    rwa [s2] at this
  simp only [e1] at q1
  -- the file
  have hfile : ∀ c F, F < framesIn ks → sig a c F = Sampler.sampleFrame sample c F := by
    intro c F hF
    refine RowExamples.C98_once a sample fade hL mf sr hm hsr hlt n [(a, .sampler (.startNow n))] (by
      simp [MixedRequest.sampler?]) _ _ q1 (by rw [Sampler.blocksIn_bare]; exact hlen) _ _ (by
      rw [framesIn_bare]; exact k1) c F (by rw [framesIn_bare]; exact hF)
  -- the fade
  have hgain : ∀ c F, F < framesIn ks → c < 2 → sig b c F = Sampler.sampleFrame sample c F *
      (FxKind.gain 2).track sr ((es.filterMap (ChainEvent.seen b WithMeters.Request.other?)).filterMap
        (ChainEvent.seen b MixedRequest.parameter?)) b "gain" F := by
    intro c F hF hc
    have y1 := k2 trivial c F hF
    simp only [FxKind.heard, FxKind.effect, FxKind.outputs] at y1
    simp only [hc, if_true] at y1
    rw [y1]
    congr 1
    rw [Network.arriving]
    simp only [List.filter_cons, List.filter_nil, g2, m2, s2, decide_true, if_true, decide_eq_true_eq, hbe.symm, if_false,
      List.map_cons, List.map_nil, List.foldl_cons, List.foldl_nil, Link.brings]
    rw [if_neg (by simp), zero_add]
    by_cases hcc : c < sample.channels
    · rw [if_pos ⟨Nat.zero_le _, by rw [s4, Nat.zero_add]; exact hcc⟩, Nat.zero_add, Nat.sub_zero, hfile c F hF]
    · rw [if_neg (by rw [s4, Nat.zero_add]; exact fun h => hcc h.2), Sampler.sampleFrame, if_neg (fun h => hcc h.1)]
  have hnear : ∀ c F, F < framesIn ks → c < 2 →
      |sig b c F - Sampler.sampleFrame sample c F * fadeLevel sample.frames F| ≤
          |Sampler.sampleFrame sample c F| * (10 / sample.frames + sample.frames / 2 ^ 50) := by
    intro c F hF hc
    rw [hgain c F hF hc, ← mul_sub, abs_mul]
    by_cases hFf : F < sample.frames
    · refine mul_le_mul_of_nonneg_left ?_ (abs_nonneg _)
      refine gain_near b sample.frames mf sr hfr hsr hle _ _ _ q2 ?_ F (by rw [framesIn_bare]; exact hF) hFf
      intro j
      have := seen_gain (length := fromDuration (RowExamples.duration sample.frames sr)) (n := n) (m := dm)
        (passes := passes) hsg j
      rw [g2] at this
      rw [this]
      split
      · simp [RowExamples.set, RowExamples.ramp, MixedRequest.parameter?, ParameterRequest.name, Option.filter]
      · rfl
    · rw [Sampler.sampleFrame, if_neg (fun h => hFf h.2)]
      simp
  have hxb : ∀ c < 2, ∀ F, x c F = sig b c F := by
    intro c hc F
    rw [hx, Network.arriving]
    simp only [List.filter_cons, List.filter_nil, g2, m2, s2, decide_true, if_true, decide_eq_true_eq, hbe, if_false,
      List.map_cons, List.map_nil, List.foldl_cons, List.foldl_nil, Link.brings]
    rw [if_neg (by simp), zero_add, if_pos ⟨Nat.zero_le _, by rw [g4, Nat.zero_add]; exact hc⟩, Nat.zero_add, Nat.sub_zero]
  refine ⟨st, x, ?_, ?_, h3, h5, ?_⟩
  · intro c hc F hF
    rw [hxb c hc F]
    exact hnear c F hF hc
  · intro i k E1 o E2 hik p1 p2 c f F hc hf hF
    rw [h7 i k E1 o E2 hik p1 p2 c f hc hf, ← hF, heard, g2]
    by_cases hi : i < waiting.length
    · simp [hi]
    · have hFl : F < framesIn ks := by rw [hF]; exact RowExamples.frame_in hik (by omega) hf
      by_cases hc2 : c < 2
      · have : ¬ 2 ≤ c := by omega
        simp [hi, show c < mc by omega, this, hxb c hc2 F]
      · have h2c : 2 ≤ c := by omega
        have y1 := k2 trivial c F hFl
        simp only [FxKind.heard, FxKind.effect, FxKind.outputs] at y1
        simp only [hc2, if_false] at y1
        simp [hi, h2c, y1]
  · intro l hl hpl
    refine h6 l hl ?_
    rw [calls_requests, m2]
    obtain ⟨k, hk⟩ := Nat.exists_eq_succ_of_ne_zero hpl
    rw [hk, List.replicate_succ, List.flatten_cons]
    exact (List.sublist_append_left _ _).trans (List.sublist_append_right _ _)

/-- C101: all process calls of the example succeed, if all process calls have an even number of frames, the maximum is
even, the sample rate is a multiple of 4, and the program makes a pass at least every 15 seconds. -/
theorem C101_meter_runs (hz : ∀ x, N.isZero x = true → x = 0) (ho : ∀ x, N.isOne x = true → x = 1) (mf mc sr : Nat)
    (hm : 0 < mf) (hmc : 2 ≤ mc) (hsr : 0 < sr) (hlt : sr < 2 ^ 32) (hmf : mf * sr ≤ 2 ^ 33) (sample : Grid ℝ)
    (hch : sample.channels ≤ mc) (fade : Fade ℝ) (hL : 0 < fade.values.length) (a b e : Id) (hab : a ≠ b) (hae : a ≠ e)
    (hbe : b ≠ e) (n : Nat) (passes : Nat → Nat) (hme : 2 ∣ mf) (hse : 4 ∣ sr) :
    ∃ prog, program sr mf sample fade a b e n passes = .ok prog ∧
      ∀ waiting ks : List (Call ℝ (WithMeters MixedNode) (WithMeters.Request MixedRequest)), ks ≠ [] →
        (∀ k ∈ waiting ++ ks, k.Valid) → Delivered prog waiting ks → (∀ k ∈ ks, 2 ∣ k.output.frameCount) →
        (∀ l < ks.length, ∃ p ≤ l, (p = 0 ∨ passes p ≠ 0) ∧ framesIn (ks.take (l + 1)) ≤ framesIn (ks.take p) + 15 * sr) →
        ∃ E, calls (WithMeters.ops (MixedNode.ops N al)) (new sr mc mf) (waiting ++ ks) = .ok E := by
  obtain ⟨ds, s1, s2, s3, s4⟩ := NodeKind.make_ok (sr := sr) hm a (.sampler sample fade) hL
  obtain ⟨dg, g1, g2, g3, g4⟩ := NodeKind.make_ok (sr := sr) hm b (.effect (.gain 2)) trivial
  obtain ⟨dm, m1, m2, m3, m4⟩ := meter_ok sr hsr e
  have hsg : ds.id ≠ dg.id := by rw [s2, g2]; exact hab
  have hsm : ds.id ≠ dm.id := by rw [s2, m2]; exact hae
  have hgm : dg.id ≠ dm.id := by rw [g2, m2]; exact hbe
  refine ⟨allCalls (fromDuration (RowExamples.duration sample.frames sr)) n ds dg dm passes, by
    rw [program, s1, g1, m1]; rfl, ?_⟩
  intro waiting ks hks hv hd heven hpass
  refine C100_keeps_up (MixedNode.ops N al) mf mc sr hm hsr _ _
    (NodeKind.mixed_healthy (al := al) hz ho hsr hmf [(a, .sampler sample fade), (b, .effect (.gain 2))]) _
    (calls_program hsg hsm hgm) (calls_allowed mc hsg hsm hgm ⟨⟨by rw [s3]; exact Nat.zero_le _, by rw [s4]; exact hch⟩,
      ⟨by rw [g3]; exact hmc, by rw [g4]; exact hmc⟩, by rw [m3]; exact hmc, by rw [m4]; exact hmc⟩) waiting ks ?_ hks hv hd
  have hreq : ∀ l i r, (i, r) ∈ requests (allCalls (fromDuration (RowExamples.duration sample.frames sr)) n ds dg dm passes l) →
      (i = b ∧ (r = .other (RowExamples.set "gain" 1 Timestamp.zero) ∨ r = .other (RowExamples.ramp "gain" 0 Timestamp.zero
        (fromDuration (RowExamples.duration sample.frames sr))))) ∨
      (i = a ∧ r = .other (.sampler (.startNow n))) ∨ i = e ∧ ∃ c, r = .meter c := by
    intro l i r hr
    rw [calls_requests, List.mem_append, s2, g2, m2] at hr
    rcases hr with hr | hr
    · split at hr
      · simp only [List.mem_cons, List.not_mem_nil, or_false, Prod.mk.injEq] at hr
        tauto
      · cases hr
    · obtain ⟨q, hq, hc⟩ := List.mem_flatten.mp hr
      obtain rfl := (List.mem_replicate.mp hq).2
      simp only [List.mem_cons, List.not_mem_nil, or_false, Prod.mk.injEq] at hc
      rcases hc with ⟨h, h'⟩ | ⟨h, h'⟩
      · exact .inr (.inr ⟨h, _, h'⟩)
      · exact .inr (.inr ⟨h, _, h'⟩)
  intro d hdm
  rw [calls_made] at hdm
  simp only [List.mem_cons, List.not_mem_nil, or_false] at hdm
  rcases hdm with rfl | rfl | rfl
  · refine .inl ⟨ds, rfl, ⟨.sampler sample fade, by rw [s2]; exact List.mem_cons_self, NodeKind.new_sound (k := .sampler sample fade) hm hsr hlt hL trivial s1⟩, ?_⟩
    intro l r hr
    rw [show (ds.within (WithMeters.other (P := MixedNode))).id = a from s2] at hr ⊢
    rcases hreq l _ r hr with ⟨h, _⟩ | ⟨_, rfl⟩ | ⟨h, _⟩
    · exact absurd h hab
    · refine ⟨_, rfl, ?_⟩
      intro k hk
      simp only [List.mem_cons, List.not_mem_nil, or_false, Prod.mk.injEq, hab, false_and] at hk
      obtain ⟨_, rfl⟩ := hk
      simp [NodeKind.Allows, SamplerEvent.startNow, Sampler.ProperLoop]
    · exact absurd h hae
  · refine .inl ⟨dg, rfl, ⟨.effect (.gain 2), by rw [g2]; exact List.mem_cons_of_mem _ List.mem_cons_self,
      NodeKind.new_sound (k := .effect (.gain 2)) hm hsr hlt trivial trivial g1⟩, ?_⟩
    intro l r hr
    rw [show (dg.within (WithMeters.other (P := MixedNode))).id = b from g2] at hr ⊢
    rcases hreq l _ r hr with ⟨_, h⟩ | ⟨h, _⟩ | ⟨h, _⟩
    · have key : ∀ k, (b, k) ∈ [(a, NodeKind.sampler sample fade), (b, NodeKind.effect (.gain 2))] →
          k = .effect (.gain 2) := by
        intro k hk
        simpa [Ne.symm hab] using hk
      rcases h with rfl | rfl
      · refine ⟨_, rfl, fun k hk => ?_⟩
        rw [key k hk]
        simp [NodeKind.Allows, FxKind.names, RowExamples.set, ParameterRequest.name]
      · refine ⟨_, rfl, fun k hk => ?_⟩
        rw [key k hk]
        simp [NodeKind.Allows, FxKind.names, RowExamples.ramp, ParameterRequest.name]
    · exact absurd h.symm hab
    · exact absurd h hbe
  · refine .inr ⟨meter, dm, rfl, by norm_num [meter], by norm_num [meter], ?_, ?_, ?_, ?_⟩
    · rw [show (dm.within (WithMeters.meter (P := MixedNode))).id = e from m2]
      exact m1
    · refine C100_steady meter sr mf hm ks (.inr ⟨hme, heven, ?_⟩)
      obtain ⟨q, rfl⟩ := hse
      refine ⟨q, ?_⟩
      rw [MeterKind.interval, meter]
      push_cast
      ring
    · rw [show (dm.within (WithMeters.meter (P := MixedNode))).id = e from m2]
      intro l hl
      obtain ⟨p, p1, p2, p3⟩ := hpass l hl
      refine ⟨p, p1, ?_, ?_⟩
      · rcases p2 with h | h
        · exact .inl h
        · right
          dsimp only
          rw [calls_requests, m2, List.mem_append]
          right
          rw [List.mem_flatten]
          exact ⟨_, List.mem_replicate.mpr ⟨h, rfl⟩, List.mem_cons_self⟩
      · have hI : (0 : ℚ) < meter.interval sr := by
          rw [MeterKind.interval, meter]
          have : (0 : ℚ) < sr := by exact_mod_cast hsr
          positivity
        have hsplit : sessionBlocks mf (ks.take (l + 1)) = sessionBlocks mf (ks.take p) ++
            blocksFrom mf (framesIn (ks.take p)) (((ks.take (l + 1)).drop p).map fun k => k.output.frameCount) := by
          have : ks.take (l + 1) = ks.take p ++ (ks.take (l + 1)).drop p := by
            conv_lhs => rw [← List.take_append_drop p (ks.take (l + 1))]
            rw [List.take_take, Nat.min_eq_left (by omega)]
          conv_lhs => rw [this]
          rw [sessionBlocks, List.map_append, MeterNode.blocksFrom_append]
          simp [sessionBlocks, framesIn]
        have hfr : framesIn (ks.take (l + 1)) = framesIn (ks.take p) +
            (((ks.take (l + 1)).drop p).map fun k => k.output.frameCount).sum := by
          have : ks.take (l + 1) = ks.take p ++ (ks.take (l + 1)).drop p := by
            conv_lhs => rw [← List.take_append_drop p (ks.take (l + 1))]
            rw [List.take_take, Nat.min_eq_left (by omega)]
          conv_lhs => rw [this]
          simp [framesIn]
        have hcount := times_count hI hm (((ks.take (l + 1)).drop p).map fun k => k.output.frameCount) (framesIn (ks.take p))
        rw [← hfr] at hcount
        have hfl : ⌊((framesIn (ks.take (l + 1)) : Nat) : ℚ) / meter.interval sr⌋ ≤
            ⌊((framesIn (ks.take p) : Nat) : ℚ) / meter.interval sr⌋ + 30 := by
          rw [← Int.floor_add_intCast]
          refine Int.floor_le_floor ?_
          have h15 : ((framesIn (ks.take (l + 1)) : Nat) : ℚ) ≤ (framesIn (ks.take p) : Nat) + 15 * sr := by exact_mod_cast p3
          have e30 : (15 : ℚ) * sr = 30 * meter.interval sr := by
            rw [MeterKind.interval, meter]
            ring
          rw [e30] at h15
          rw [div_le_iff₀ hI]
          push_cast
          rw [add_mul, div_mul_cancel₀ _ hI.ne']
          exact h15
        rw [hsplit, times_append, List.length_append]
        have h2 : meter.channels = 2 := rfl
        rw [h2]
        omega
    · intro l r hr
      rw [show (dm.within (WithMeters.meter (P := MixedNode))).id = e from m2] at hr
      rcases hreq l _ r hr with ⟨h, _⟩ | ⟨h, _⟩ | ⟨_, h⟩
      · exact absurd h.symm hbe
      · exact absurd h.symm hae
      · exact h

/-- C101 fails for other lengths of process calls: if one has one frame more than a multiple of the maximum number of
frames, the session ends with a fault on the audio thread. -/
theorem C101_odd_call_violated (mf mc sr : Nat) (hm : 1 < mf) (hsr : 0 < sr) (sample : Grid ℝ) (fade : Fade ℝ)
    (hL : 0 < fade.values.length) (a b e : Id) (hab : a ≠ b) (hae : a ≠ e) (hbe : b ≠ e) (n : Nat) (passes : Nat → Nat)
    (prog : Nat → List Api) (hprog : program sr mf sample fade a b e n passes = .ok prog)
    (waiting ks : List (Call ℝ (WithMeters MixedNode) (WithMeters.Request MixedRequest)))
    (hv : ∀ k ∈ waiting ++ ks, k.Valid) (hd : Delivered prog waiting ks)
    (k : Call ℝ (WithMeters MixedNode) (WithMeters.Request MixedRequest)) (hk : k ∈ ks)
    (h1 : k.output.frameCount % mf = 1) (E : Processor ℝ (WithMeters MixedNode)) :
    calls (WithMeters.ops (MixedNode.ops N al)) (new sr mc mf) (waiting ++ ks) ≠ .ok E := by
  obtain ⟨ds, s1, s2, s3, s4⟩ := NodeKind.make_ok (sr := sr) (show 0 < mf by omega) a (.sampler sample fade) hL
  obtain ⟨dg, g1, g2, g3, g4⟩ := NodeKind.make_ok (sr := sr) (show 0 < mf by omega) b (.effect (.gain 2)) trivial
  obtain ⟨dm, m1, m2, m3, m4⟩ := meter_ok sr hsr e
  have hsg : ds.id ≠ dg.id := by rw [s2, g2]; exact hab
  have hsm : ds.id ≠ dm.id := by rw [s2, m2]; exact hae
  have hgm : dg.id ≠ dm.id := by rw [g2, m2]; exact hbe
  have hp : program sr mf sample fade a b e n passes =
      .ok (allCalls (fromDuration (RowExamples.duration sample.frames sr)) n ds dg dm passes) := by
    rw [program, s1, g1, m1]
    rfl
  rw [hp] at hprog
  cases hprog
  exact C100_short_blocks_violated (MixedNode.ops N al) mf mc sr (by omega) hsr _ (calls_program hsg hsm hgm)
    (calls_plain hsg hsm hgm) e meter (by norm_num [meter]) dm m1 (by rw [calls_made]; simp) waiting ks hv hd k hk
    (by omega) (by rw [h1]; norm_num [meter]) E

/-! ### Examples -/

/-- A process call of 8 frames with two channels. -/
def eightFrames (as : List Api) : Call ℝ (WithMeters MixedNode) (WithMeters.Request MixedRequest) :=
  ⟨as.map fun c => (c.command, .plain), .owned (List.replicate 16 1) 2 8 44100, .owned (List.replicate 16 0) 2 8 44100,
    fun _ => Env.plain⟩

theorem eightFrames_valid (as : List Api) : (eightFrames as).Valid := by
  refine ⟨?_, ?_, trivial, le_refl _, ?_⟩
  · simp [eightFrames, Buf.WF]
  · simp [eightFrames, Buf.WF]
  · intro x hx
    obtain ⟨y, _, rfl⟩ := List.mem_map.mp hx
    exact command_api y

/-- Calls for as many steps of a program. -/
theorem eightFrames_session (prog : Nat → List Api) (l : Nat) :
    (∀ k ∈ [eightFrames []] ++ (List.range (l + 1)).map (fun i => eightFrames (prog i)), k.Valid) ∧
      Delivered prog [eightFrames []] ((List.range (l + 1)).map fun i => eightFrames (prog i)) := by
  constructor
  · intro k hk
    rw [List.mem_append, List.mem_singleton, List.mem_map] at hk
    rcases hk with rfl | ⟨i, _, rfl⟩ <;> exact eightFrames_valid _
  · refine ⟨?_, ⟨_, rfl⟩, ?_, ?_⟩
    · simp [history, eightFrames]
    · intro k hk
      simp only [List.getElem?_map, Option.map_eq_some_iff] at hk
      obtain ⟨i, hi, rfl⟩ := hk
      rw [List.getElem?_range (by omega)] at hi
      cases hi
      simp [history, eightFrames, Function.comp_def]
    · intro i k hi hk
      simp only [List.getElem?_map, Option.map_eq_some_iff] at hk
      obtain ⟨j, hj, rfl⟩ := hk
      obtain ⟨_, rfl⟩ := List.getElem?_eq_some_iff.mp hj
      simp [eightFrames, Function.comp_def]

theorem eightFrames_total (prog : Nat → List Api) (l : Nat) :
    framesIn ((List.range l).map fun i => eightFrames (prog i)) = 8 * l := by
  rw [framesIn, List.map_map]
  have : (fun k : Call ℝ (WithMeters MixedNode) (WithMeters.Request MixedRequest) => k.output.frameCount) ∘
      (fun i => eightFrames (prog i)) = fun _ => 8 := rfl
  simp [this, Nat.mul_comm]

/-- A file of one channel and 1000 frames. -/
noncomputable def exampleFile : Grid ℝ := ⟨1, 1000, fun _ f => f + 1⟩

/-- A session of half a second and more, with a report, in calls of 8 frames: it succeeds (`C101_meter_runs`), and the
conditions of `C101_meter_example` hold. -/
example (hz : ∀ x, N.isZero x = true → x = 0) (ho : ∀ x, N.isOne x = true → x = 1) :
    ∃ prog E ks, program 44100 16 exampleFile ⟨[0, 1]⟩ 1 2 3 0 (fun i => if i % 100 = 99 then 1 else 0) = .ok prog ∧
      framesIn ks = 24000 ∧ ks ≠ [] ∧ (∀ k ∈ [eightFrames []] ++ ks, k.Valid) ∧ Delivered prog [eightFrames []] ks ∧
      meter.Steady 44100 (sessionBlocks 16 ks) ∧ (Sampler.blocksIn 16 ks + 2) * 44100 ≤ 2 ^ 32 ∧
      calls (WithMeters.ops (MixedNode.ops N al)) (new 44100 2 16) ([eightFrames []] ++ ks) = .ok E := by
  obtain ⟨prog, h1, h2⟩ := C101_meter_runs (N := N) (al := al) hz ho 16 2 44100 (by norm_num) (by norm_num) (by norm_num)
    (by norm_num) (by norm_num) exampleFile (by norm_num [exampleFile]) ⟨[0, 1]⟩ (by simp) 1 2 3 (by decide) (by decide)
    (by decide) 0 (fun i => if i % 100 = 99 then 1 else 0) (by norm_num) (by norm_num)
  obtain ⟨v1, v2⟩ := eightFrames_session prog 2999
  have hne : (List.range (2999 + 1)).map (fun i => eightFrames (prog i)) ≠ [] := by simp
  have heven : ∀ k ∈ (List.range (2999 + 1)).map (fun i => eightFrames (prog i)), 2 ∣ k.output.frameCount := by
    intro k hk
    obtain ⟨i, _, rfl⟩ := List.mem_map.mp hk
    exact ⟨4, rfl⟩
  obtain ⟨E, hE⟩ := h2 [eightFrames []] _ hne v1 v2 heven (by
    intro l hl
    refine ⟨0, Nat.zero_le _, .inl rfl, ?_⟩
    rw [← List.map_take, List.take_range, eightFrames_total]
    have := Nat.min_le_right (l + 1) (2999 + 1)
    omega)
  refine ⟨prog, E, _, h1, ?_, hne, v1, v2, ?_, ?_, hE⟩
  · rw [eightFrames_total]
  · exact C100_steady meter 44100 16 (by norm_num) _ (.inr ⟨⟨8, rfl⟩, heven, 11025, by norm_num [MeterKind.interval, meter]⟩)
  · rw [Sampler.blocksIn, List.map_map]
    have : ((fun k : Call ℝ (WithMeters MixedNode) (WithMeters.Request MixedRequest) => k.output.frameCount / 16 + 1) ∘
        fun i => eightFrames (prog i)) = fun _ => 1 := by
      funext i
      simp [eightFrames, Buf.frameCount]
    rw [this, List.map_const', List.sum_replicate, List.length_range]
    norm_num

end MeterExample
end Rawdio
