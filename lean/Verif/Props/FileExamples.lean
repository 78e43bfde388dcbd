import Mathlib.Analysis.Complex.ExponentialBounds
import Verif.Lemmas.SamplerLoopNode
import Verif.Model.FileExamples
import Verif.Props.Files
import Verif.Props.RowExamples
import Verif.Spec.FileExamples

/-!
# What the examples play that play files (C98)
-/

namespace Rawdio
namespace RowExamples

open Processor Network Mixed

variable {N : Platform} {al : Int → Nat → Nat → Nat → Nat × Nat}

/-- C98: a sampler among any nodes that is told at the start of a session to start and to loop over its whole sample plays
the sample again and again, however the stream is divided into process calls and blocks. -/
theorem C98_loops {P : Type} (id : Id) (sample : Grid ℝ) (fade : Fade ℝ) (hL : 0 < fade.values.length)
    (hlong : fade.values.length ≤ sample.frames) (mf sr : Nat) (hm : 0 < mf) (hsr : 0 < sr) (hlt : sr < 2 ^ 32)
    (n m : Nat) (hnm : n ≤ m) (reqs : List (Id × MixedRequest))
    (hreqs : (reqs.filterMap fun x => if x.1 = id then x.2.sampler? else none) =
      [.startNow n, .enableLoop m 0 (Timestamp.fromSamples (sample.frames : ℚ) sr)])
    (ks : List (Call ℝ P MixedRequest)) (es : List (ChainEvent MixedRequest))
    (h : ChainHistory mf sr (fun i => if i = 0 then reqs else []) ks es)
    (hlen : (Sampler.blocksIn mf ks + 3 * (framesIn ks / sample.frames) + 6) * sr ≤ 2 ^ 32) (x z : Nat → Nat → ℝ)
    (hz : (NodeKind.sampler sample fade).Makes sr (framesIn ks) id es x z) (c F : Nat) (hF : F < framesIn ks) :
    z c F = repeated sample c F := by
  rw [Sampler.among_nodes id sample fade mf sr hm hsr hlt _ reqs hreqs ks es h x z hz (repeated sample) ?_ c F hF]
  · split
    · rfl
    · rename_i hc
      rw [repeated, Sampler.sampleFrame, if_neg (fun h => hc h.1)]
  · intro b bs h1 h2 h3 h4 h5 h6
    refine Sampler.C97_repeats_partial sr hsr hlt sample fade hL hlong n m b bs hnm h1 h2 h3 h4 ?_
    rw [h6]
    exact le_trans (Nat.mul_le_mul_right _ (by omega)) hlen

/-- C98: a sampler among any nodes that is told at the start of a session to start plays its sample once. -/
theorem C98_once {P : Type} (id : Id) (sample : Grid ℝ) (fade : Fade ℝ) (hL : 0 < fade.values.length) (mf sr : Nat)
    (hm : 0 < mf) (hsr : 0 < sr) (hlt : sr < 2 ^ 32) (n : Nat) (reqs : List (Id × MixedRequest))
    (hreqs : (reqs.filterMap fun x => if x.1 = id then x.2.sampler? else none) = [.startNow n])
    (ks : List (Call ℝ P MixedRequest)) (es : List (ChainEvent MixedRequest))
    (h : ChainHistory mf sr (fun i => if i = 0 then reqs else []) ks es)
    (hlen : (Sampler.blocksIn mf ks + 2) * sr ≤ 2 ^ 32) (x z : Nat → Nat → ℝ)
    (hz : (NodeKind.sampler sample fade).Makes sr (framesIn ks) id es x z) (c F : Nat) (hF : F < framesIn ks) :
    z c F = Sampler.sampleFrame sample c F := by
  rw [Sampler.among_nodes id sample fade mf sr hm hsr hlt _ reqs hreqs ks es h x z hz (Sampler.sampleFrame sample) ?_ c F hF]
  · split
    · rfl
    · rename_i hc
      rw [Sampler.sampleFrame, if_neg (fun h => hc h.1)]
  · intro b bs h1 h2 h3 h4 h5 h6
    have hi := Sampler.new_idle sr hsr hlt sample fade hL
    obtain ⟨f, t, hr⟩ := Sampler.C64_plays_once (Sampler.new sr sample fade) (Sampler.new_good sr hsr hlt sample fade hL)
      rfl rfl (by simp [Sampler.new]) hi.stopped n b bs h1 h2 h3 h4
      (le_trans (Nat.mul_le_mul_right _ (by omega)) hlen)
    refine ⟨f, t, ?_⟩
    rw [hr]
    congr 2
    have key : ∀ (l : List (SamplerBlock ℝ)) (p : Nat), Sampler.playedFrom sample p l =
        Sampler.addedFrom (Sampler.sampleFrame sample) p l := by
      intro l
      induction l with
      | nil => intro p; rfl
      | cons b l ih =>
        intro p
        simp only [Sampler.playedFrom, Sampler.addedFrom, ih, Sampler.sampleFrame]
        congr 2
        funext c f
        by_cases h1 : c < b.out.channels <;> by_cases h2 : f < b.out.frames <;> by_cases h3 : c < sample.channels <;>
          by_cases h4 : p + f < sample.frames <;> simp [h1, h2, h3, h4]
    exact key _ _

theorem frame_in {S P C : Type} {waiting ks : List (Call S P C)} {i : Nat} {k : Call S P C}
    (hik : (waiting ++ ks)[i]? = some k) (hi : waiting.length ≤ i) {f : Nat} (hf : f < k.output.frameCount) :
    framesIn (ks.take (i - waiting.length)) + f < framesIn ks := by
  rw [List.getElem?_append_right (by omega)] at hik
  have hlt : i - waiting.length < ks.length := by
    by_contra hn; rw [List.getElem?_eq_none (by omega)] at hik; cases hik
  have e : ks = ks.take (i - waiting.length) ++ k :: ks.drop (i - waiting.length + 1) := by
    conv_lhs => rw [← List.take_append_drop (i - waiting.length) ks]
    rw [List.drop_eq_getElem_cons hlt]
    rw [List.getElem?_eq_getElem hlt] at hik
    injection hik with hik
    rw [hik]
  conv_rhs => rw [e]
  simp only [framesIn, List.map_append, List.sum_append, List.map_cons, List.sum_cons]
  omega

theorem ks_pos {S P C : Type} {ks : List (Call S P C)} {F : Nat} (h : F < framesIn ks) : 0 < ks.length := by
  cases ks with
  | nil => simp [framesIn] at h
  | cons k ks => simp

theorem repeated_silent (sample : Grid ℝ) (c F : Nat) (h : sample.channels ≤ c) : repeated sample c F = 0 := by
  rw [repeated, Sampler.sampleFrame, if_neg (fun hc => by omega)]

theorem proper_loop (sr : Nat) (hsr : 0 < sr) (hlt : sr < 2 ^ 32) (frames : Nat) (h : 0 < frames) (m : Nat) :
    Sampler.ProperLoop (.enableLoop m Timestamp.zero (Timestamp.fromSamples (frames : ℚ) sr)) := by
  intro a b hab
  simp only [SamplerEvent.enableLoop, SampleEventType.enableLoop.injEq] at hab
  obtain ⟨rfl, rfl⟩ := hab
  have h1 := abs_le.mp (Sampler.fromSamples_near frames sr)
  have h2 : (1 : ℚ) < (frames : ℚ) / sr * 2 ^ 32 := by
    have h3 : (0 : ℚ) < sr := by exact_mod_cast hsr
    have h4 : (sr : ℚ) < 2 ^ 32 := by exact_mod_cast hlt
    have h5 : (1 : ℚ) ≤ frames := by exact_mod_cast h
    rw [div_mul_eq_mul_div, lt_div_iff₀ h3]
    nlinarith
  have h6 : (0 : ℚ) < (Timestamp.fromSamples (frames : ℚ) sr : Int) := by linarith [h1.1]
  exact_mod_cast h6

/-- C98: what the example plays that plays a file, `examples/src/bin/file_playback.rs`, for any file that is not shorter
than the fade: the file again and again at the given level, on its channels up to two, from the process call in
which the engine is started. -/
theorem C98_file_playback (hz : ∀ x, N.isZero x = true → x = 0) (ho : ∀ x, N.isOne x = true → x = 1) (mf mc sr : Nat)
    (hm : 0 < mf) (hmc : 2 ≤ mc) (hsr : 0 < sr) (hle : sr ≤ 2 ^ 30) (hmf : mf * sr ≤ 2 ^ 33) (sample : Grid ℝ)
    (hch : sample.channels ≤ mc) (fade : Fade ℝ) (hL : 0 < fade.values.length) (hlong : fade.values.length ≤ sample.frames)
    (level : ℝ) (a b : Id) (hab : a ≠ b) (n : Nat) (calls0 : List (ApiCall MixedNode MixedRequest))
    (hcalls : playbackProgram sr mf sample fade level a b n = .ok calls0)
    (waiting ks : List (Call ℝ MixedNode MixedRequest)) (hv : ∀ k ∈ waiting ++ ks, k.Valid)
    (hdel : Delivered (fun i => if i = 0 then calls0 else []) waiting ks) (E : Processor ℝ MixedNode)
    (hE : calls (MixedNode.ops N al) (new sr mc mf) (waiting ++ ks) = .ok E)
    (hlen : (Sampler.blocksIn mf ks + 3 * (framesIn ks / sample.frames) + 6) * sr ≤ 2 ^ 32) :
    ∀ i k E1 o E2, (waiting ++ ks)[i]? = some k →
      calls (MixedNode.ops N al) (new sr mc mf) ((waiting ++ ks).take i) = .ok E1 →
      E1.process (MixedNode.ops N al) k.env k.commands k.input k.output = .ok (o, E2) →
      ∀ c f F, c < k.output.channelCount → f < k.output.frameCount →
        F = framesIn (ks.take (i - waiting.length)) + f →
        o.sample? c f = some (if i < waiting.length ∨ 2 ≤ c then 0 else repeated sample c F * level) := by
  have hlt : sr < 2 ^ 32 := by omega
  have hreqs : allRequests (playbackParts sample fade a b) (playLoop sr sample n ++ [(1, set "gain" level Timestamp.zero)]) =
      [(a, .sampler (.startNow n)), (a, .sampler (.enableLoop (n + 1) Timestamp.zero
        (Timestamp.fromSamples sample.frames sr))), (b, set "gain" level Timestamp.zero)] := rfl
  obtain ⟨es, y, e1, e2, e3⟩ := C93_row hz ho mf mc sr hm hsr hlt hmf (playbackParts sample fade a b)
    (by simp [playbackParts]) (by
      intro p hp
      simp only [playbackParts, List.mem_cons, List.not_mem_nil, or_false] at hp
      rcases hp with rfl | rfl
      · exact hL
      · trivial) (by simp [playbackParts, hab]) (by
      intro p hp
      simp only [playbackParts, List.mem_cons, List.not_mem_nil, or_false] at hp
      rcases hp with rfl | rfl
      · exact ⟨Nat.zero_le _, hch⟩
      · exact ⟨hmc, hmc⟩) (by simp [playbackParts]) _ (by
      rw [hreqs]
      intro x hx
      simp only [List.mem_cons, List.not_mem_nil, or_false] at hx
      rcases hx with rfl | rfl | rfl
      · intro _ _ h; cases h
      · exact proper_loop sr hsr hlt sample.frames (by omega) _
      · trivial) calls0 hcalls waiting ks hv hdel E hE
  rw [hreqs] at e1
  obtain ⟨z, z1, z2⟩ := e2
  intro i k E1 o E2 hik q1 q2 c f F hc hf' hF
  rw [e3 i k E1 o E2 hik q1 q2 c f F hc hf' hF]
  by_cases hi : i < waiting.length
  · simp [hi]
  have hFl : F < framesIn ks := by rw [hF]; exact frame_in hik (by omega) hf'
  have y1 := z2 trivial c F hFl
  simp only [FxKind.heard, FxKind.effect, FxKind.outputs] at y1
  by_cases hc2 : c < 2
  · have hg : (FxKind.gain 2).track sr (es.filterMap (ChainEvent.seen b MixedRequest.parameter?)) b "gain" F = level := by
      rw [C87_set_now _ b "gain" mf sr hsr hle _ 0 level ?_ ks es e1 F hFl, if_pos ⟨by simp [framesIn], ks_pos hFl⟩]
      intro j
      by_cases hj : j = 0
      · simp [hj, set, hab, MixedRequest.parameter?, ParameterRequest.name, Option.filter]
      · simp [hj]
    rw [if_neg (by omega), if_neg (by omega), y1, if_pos hc2, hg]
    congr 2
    change (if c < sample.channels then z c F else 0) = _
    split
    · exact C98_loops a sample fade hL hlong mf sr hm hsr hlt n (n + 1) (by omega) _ (by
        simp [MixedRequest.sampler?, set, hab.symm, Timestamp.zero]) ks es e1 hlen _ z z1 c F hFl
    · exact (repeated_silent sample c F (by omega)).symm
  · rw [y1]
    simp [hc2]

/-- C98: an exponential automation of a parameter of a node among others is followed (`Fx.C90_exponential`). -/
theorem C98_exponential {P : Type} (k : FxKind) (i : Id) (name : String) (mf sr : Nat) (hsr : 0 < sr) (hle : sr ≤ 2 ^ 28)
    (changes : Nat → List (Id × MixedRequest)) (n : Nat) (ps : List AutomationPoint)
    (hown : ∀ j, (changes j).filterMap (fun x => if x.1 = i then x.2.parameter?.filter (fun r => r.name = name) else none) =
      if j = n then ps.map (Automation.request .exponential name) else [])
    (ks : List (Call ℝ P MixedRequest)) (es : List (ChainEvent MixedRequest))
    (h : ChainHistory mf sr changes ks es) (T : Int) (hT : T = Timestamp.fromSamples (framesIn (ks.take n)) sr)
    (hpos : ∀ x ∈ k.default name :: ps.map AutomationPoint.value, 0 < x)
    (hlive : ∀ p ∈ ps, p.start = p.finish ∨ T < p.finish) (M R L : ℝ) (hM : 9 ≤ M) (hL : 0 ≤ L)
    (hsp : Automation.Spaced (2 ^ 32 / sr) M (ps.map (Automation.arriving T)))
    (hlen : ∀ p ∈ ps, (p.finish : ℝ) - p.start ≤ L * (2 ^ 32 / sr))
    (hR : ∀ x ∈ k.default name :: ps.map AutomationPoint.value, ∀ y ∈ k.default name :: ps.map AutomationPoint.value,
      Real.log (x / y) ≤ R) (F : Nat) (hF : F < framesIn ks) (hn : framesIn (ks.take n) ≤ F) :
    ∃ t : Int, T ≤ t ∧ |(t : ℝ) - F * (2 ^ 32 / sr)| ≤ 3 / 2 ∧
      0 < k.track sr (es.filterMap (ChainEvent.seen i MixedRequest.parameter?)) i name F ∧
      0 < Automation.curve Automation.exponential (k.default name) (ps.map (Automation.arriving T)) t ∧
      |Real.log (k.track sr (es.filterMap (ChainEvent.seen i MixedRequest.parameter?)) i name F /
        Automation.curve Automation.exponential (k.default name) (ps.map (Automation.arriving T)) t)| ≤
        8 * R / (M - 3) + L / 2 ^ 51 := by
  have hs := history_seen (P' := FxNode) i MixedRequest.parameter? h
  have htk : framesIn ((ks.map (Call.bare : Call ℝ P MixedRequest → Call ℝ FxNode ParameterRequest)).take n) =
      framesIn (ks.take n) := by rw [← List.map_take, framesIn_bare]
  obtain ⟨t, t1, t2, t3, t4, t5, -⟩ := (Fx.C90_exponential k i name mf sr hsr hle _ n ps (by
      intro j
      rw [seenBy, List.filter_filterMap]
      have : ((changes j).filterMap fun x => if x.1 = i then x.2.parameter?.filter (fun r => r.name = name) else none).map
          (fun r => (i, r)) = if j = n then ps.map (fun p => (i, Automation.request .exponential name p)) else [] := by
        rw [hown j]
        split
        · rw [List.map_map]; rfl
        · rfl
      rw [← this, List.map_filterMap]
      congr 1
      funext x
      by_cases hx : x.1 = i
      · rw [if_pos hx, if_pos hx]
        cases x.2.parameter? with
        | none => rfl
        | some r =>
          by_cases hr : r.name = name <;> simp [Option.filter, hr]
      · rw [if_neg hx, if_neg hx]
        rfl) _ _ hs T (by rw [htk]; exact hT) hpos hlive M R L hM hL hsp hlen hR F (by rw [framesIn_bare]; exact hF)).2
      (by rw [htk]; exact hn)
  exact ⟨t, t1, t2, t3, t4, t5⟩

theorem log_thousand : Real.log 1000 ≤ 7 := by
  have h1 : Real.log 1000 ≤ Real.log (2 ^ 10) := Real.log_le_log (by norm_num) (by norm_num)
  rw [Real.log_pow] at h1
  have h2 := Real.log_two_lt_d9
  push_cast at h1
  linarith

/-- The logarithm of the sweep. -/
theorem log_sweep (t : ℝ) : 0 < sweepFrequency t ∧ Real.log (sweepFrequency t) = Real.log 20 +
    Real.log 1000 * (if t < 10 then t / 10 else if t < 20 then 2 - t / 10 else 0) := by
  unfold sweepFrequency
  split_ifs
  · refine ⟨by positivity, ?_⟩
    rw [Real.log_mul (by norm_num) (by positivity), Real.log_rpow (by norm_num)]
    ring
  · refine ⟨by positivity, ?_⟩
    rw [Real.log_mul (by norm_num) (by positivity), Real.log_rpow (by norm_num)]
    ring
  · exact ⟨by norm_num, by ring⟩

theorem sweep_near (x y : ℝ) : |Real.log (sweepFrequency x / sweepFrequency y)| ≤ |x - y| := by
  obtain ⟨x1, x2⟩ := log_sweep x
  obtain ⟨y1, y2⟩ := log_sweep y
  rw [Real.log_div x1.ne' y1.ne', x2, y2]
  have h0 : 0 ≤ Real.log 1000 := Real.log_nonneg (by norm_num)
  have h7 := log_thousand
  have hk : |(if x < 10 then x / 10 else if x < 20 then 2 - x / 10 else 0) -
      (if y < 10 then y / 10 else if y < 20 then 2 - y / 10 else 0)| ≤ |x - y| / 10 := by
    have := le_abs_self (x - y)
    have := neg_abs_le (x - y)
    split_ifs <;> rw [abs_le] <;> constructor <;> linarith
  rw [show ∀ u v : ℝ, Real.log 20 + Real.log 1000 * u - (Real.log 20 + Real.log 1000 * v) = Real.log 1000 * (u - v) by
    intros; ring, abs_mul, abs_of_nonneg h0]
  have := abs_nonneg (x - y)
  nlinarith [mul_le_mul h7 hk (abs_nonneg _) (by norm_num)]

/-- The frequency of the example that filters a file. -/
theorem frequency_near {P : Type} (k : FxKind) (hk : k.default "frequency" = 1000) (b : Id) (mf sr : Nat) (hsr : 4 ≤ sr)
    (hle : sr ≤ 2 ^ 28) (changes : Nat → List (Id × MixedRequest)) (ks : List (Call ℝ P MixedRequest))
    (es : List (ChainEvent MixedRequest)) (h : ChainHistory mf sr changes ks es)
    (hown : ∀ j, (changes j).filterMap (fun x => if x.1 = b then x.2.parameter?.filter (fun r => r.name = "frequency") else none) =
      if j = 0 then [ParameterRequest.change "frequency" ⟨20, Timestamp.zero, .immediate⟩,
        .change "frequency" ⟨20000, Timestamp.fromSeconds 10, .exponential Timestamp.zero⟩,
        .change "frequency" ⟨20, Timestamp.fromSeconds 20, .exponential (Timestamp.fromSeconds 10)⟩] else [])
    (F : ℕ) (hF : F < framesIn ks) :
    0 < k.track sr (es.filterMap (ChainEvent.seen b MixedRequest.parameter?)) b "frequency" F ∧
    |Real.log (k.track sr (es.filterMap (ChainEvent.seen b MixedRequest.parameter?)) b "frequency" F /
      sweepFrequency (F / sr))| ≤ 7 / sr + 2 / 10 ^ 6 := by
  have hsr' : (4 : ℝ) ≤ sr := by exact_mod_cast hsr
  have hle' : (sr : ℝ) ≤ 2 ^ 28 := by exact_mod_cast hle
  have hpos : (0 : ℝ) < sr := by linarith
  have hT : (0 : Int) = Timestamp.fromSamples (framesIn (ks.take 0)) sr := by
    simp [framesIn, Timestamp.fromSamples, Timestamp.fromSeconds, Timestamp.roundHalfEven]
  have e10 : (10 : ℝ) * sr * (2 ^ 32 / sr) = 10 * 2 ^ 32 := by field_simp
  have f10 : Timestamp.fromSeconds 10 = 10 * 2 ^ 32 := by
    simp [Timestamp.fromSeconds, Timestamp.roundHalfEven, Timestamp.one]
    norm_num
  have f20 : Timestamp.fromSeconds 20 = 20 * 2 ^ 32 := by
    simp [Timestamp.fromSeconds, Timestamp.roundHalfEven, Timestamp.one]
    norm_num
  obtain ⟨t, t1, t2, t3, t4, t5⟩ := C98_exponential k b "frequency" mf sr (by omega) hle _ 0
      [⟨20, 0, 0⟩, ⟨20000, 0, 10 * 2 ^ 32⟩, ⟨20, 10 * 2 ^ 32, 20 * 2 ^ 32⟩] (by
      intro j
      rw [hown j, f10, f20]
      split
      · simp [Automation.request, Timestamp.zero]
      · rfl) ks es h 0 hT (by rw [hk]; simp) (by simp) (10 * sr) (Real.log 1000) (10 * sr) (by linarith) (by linarith)
      (by
        refine ⟨?_, ?_⟩
        · rw [e10]
          simp [Automation.arriving]
          norm_num
        · simp [Automation.arriving])
      (by
        rw [e10]
        simp
        norm_num)
      (by
        rw [hk]
        intro x hx y hy
        simp only [List.map_cons, List.map_nil, List.mem_cons, List.not_mem_nil, or_false] at hx hy
        rcases hx with rfl | rfl | rfl | rfl <;> rcases hy with rfl | rfl | rfl | rfl <;>
          exact Real.log_le_log (by norm_num) (by norm_num)) F hF (by simp [framesIn])
  have hcur : Automation.curve Automation.exponential (k.default "frequency")
      (([⟨20, 0, 0⟩, ⟨20000, 0, 10 * 2 ^ 32⟩, ⟨20, 10 * 2 ^ 32, 20 * 2 ^ 32⟩] : List AutomationPoint).map
        (Automation.arriving 0)) t = sweepFrequency ((t : ℝ) / 2 ^ 32) := by
    have h0' : (0 : ℝ) ≤ t := by exact_mod_cast t1
    simp only [Automation.arriving, List.map_cons, List.map_nil, Automation.curve, Automation.exponential, sweepFrequency]
    norm_num
    have e1 : ((t : ℝ) / 4294967296 < 10) ↔ ((t : ℝ) < 42949672960) := by rw [div_lt_iff₀ (by norm_num)]; norm_num
    have e2 : ((t : ℝ) / 4294967296 < 20) ↔ ((t : ℝ) < 85899345920) := by rw [div_lt_iff₀ (by norm_num)]; norm_num
    rw [if_congr e1 rfl rfl, if_congr e2 rfl rfl]
    rw [if_neg (by omega), if_neg (by omega), if_neg (by omega)]
    split
    · congr 2
      rw [div_div]
      norm_num
    · split
      · rw [one_div, Real.inv_rpow (by norm_num), ← Real.rpow_neg (by norm_num),
          show (20000 : ℝ) = 20 * 1000 ^ (1 : ℝ) by norm_num, mul_assoc, ← Real.rpow_add (by norm_num)]
        congr 2
        field_simp
        ring
      · rfl
  rw [hcur] at t4 t5
  refine ⟨t3, ?_⟩
  have a1 := sweep_near ((t : ℝ) / 2 ^ 32) (F / sr)
  have a2 : |(t : ℝ) / 2 ^ 32 - F / sr| ≤ 3 / 2 / 2 ^ 32 := by
    rw [show (t : ℝ) / 2 ^ 32 - F / sr = ((t : ℝ) - F * (2 ^ 32 / sr)) / 2 ^ 32 by field_simp, abs_div,
      abs_of_pos (show (0 : ℝ) < 2 ^ 32 by norm_num)]
    exact div_le_div_of_nonneg_right t2 (by norm_num)
  have a3 : 8 * Real.log 1000 / (10 * (sr : ℝ) - 3) ≤ 7 / sr := by
    rw [div_le_div_iff₀ (by linarith) hpos]
    nlinarith [log_thousand]
  have a4 : 10 * (sr : ℝ) / 2 ^ 51 ≤ 15 / 10 ^ 7 := by
    rw [div_le_iff₀ (by norm_num)]
    linarith
  obtain ⟨s1, _⟩ := log_sweep (F / sr)
  rw [Real.log_div t3.ne' t4.ne'] at t5
  rw [Real.log_div t4.ne' s1.ne'] at a1
  rw [Real.log_div t3.ne' s1.ne']
  have := abs_sub_le (Real.log (k.track sr (es.filterMap (ChainEvent.seen b MixedRequest.parameter?)) b "frequency" F))
    (Real.log (sweepFrequency ((t : ℝ) / 2 ^ 32))) (Real.log (sweepFrequency (F / sr)))
  norm_num at *
  linarith

theorem response_congr {c d : ℕ → Biquad.Coefficients} {x y : ℕ → ℝ} (n : Nat) (hc : ∀ t ≤ n, c t = d t)
    (hx : ∀ t ≤ n, x t = y t) : Biquad.response c x n = Biquad.response d y n := by
  induction n using Nat.strongRecOn with
  | _ n ih =>
    match n, hc, hx, ih with
    | 0, hc, hx, _ => rw [Biquad.response, Biquad.response, hc 0 (le_refl _), hx 0 (le_refl _)]
    | 1, hc, hx, _ =>
      simp only [Biquad.response]
      rw [hc 1 (le_refl _), hc 0 (by omega), hx 1 (le_refl _), hx 0 (by omega)]
    | n + 2, hc, hx, ih =>
      rw [Biquad.response, Biquad.response, hc (n + 2) (le_refl _), hx (n + 2) (le_refl _), hx (n + 1) (by omega),
        hx n (by omega), ih (n + 1) (by omega) (fun t ht => hc t (by omega)) (fun t ht => hx t (by omega)),
        ih n (by omega) (fun t ht => hc t (by omega)) (fun t ht => hx t (by omega))]

/-- C98: what the example plays that filters a file, `examples/src/bin/biquad.rs`, for any file that is not shorter than the
fade: the file again and again, through a second order low pass whose frequency goes up and down as `sweepFrequency` to
seven frames and two parts in a million. -/
theorem C98_biquad (hz : ∀ x, N.isZero x = true → x = 0) (ho : ∀ x, N.isOne x = true → x = 1) (mf mc sr : Nat)
    (hm : 0 < mf) (hmc : 2 ≤ mc) (hsr : 4 ≤ sr) (hle : sr ≤ 2 ^ 28) (hmf : mf * sr ≤ 2 ^ 33) (sample : Grid ℝ)
    (hch : sample.channels ≤ mc) (fade : Fade ℝ) (hL : 0 < fade.values.length) (hlong : fade.values.length ≤ sample.frames)
    (a b : Id) (hab : a ≠ b) (n : Nat) (calls0 : List (ApiCall MixedNode MixedRequest))
    (hcalls : biquadProgram sr mf sample fade a b n = .ok calls0)
    (waiting ks : List (Call ℝ MixedNode MixedRequest)) (hv : ∀ k ∈ waiting ++ ks, k.Valid)
    (hdel : Delivered (fun i => if i = 0 then calls0 else []) waiting ks) (E : Processor ℝ MixedNode)
    (hE : calls (MixedNode.ops N al) (new sr mc mf) (waiting ++ ks) = .ok E)
    (hlen : (Sampler.blocksIn mf ks + 3 * (framesIn ks / sample.frames) + 6) * sr ≤ 2 ^ 32) :
    ∃ frequency : ℕ → ℝ, (∀ F, 0 < frequency F ∧
        |Real.log (frequency F / sweepFrequency (F / sr))| ≤ 7 / sr + 2 / 10 ^ 6) ∧
      ∀ i k E1 o E2, (waiting ++ ks)[i]? = some k →
        calls (MixedNode.ops N al) (new sr mc mf) ((waiting ++ ks).take i) = .ok E1 →
        E1.process (MixedNode.ops N al) k.env k.commands k.input k.output = .ok (o, E2) →
        ∀ c f F, c < k.output.channelCount → f < k.output.frameCount →
          F = framesIn (ks.take (i - waiting.length)) + f →
          o.sample? c f = some (if i < waiting.length ∨ 2 ≤ c then 0 else
            Biquad.response (fun t => Biquad.calculate .lowPass ⟨frequency t, 1 / √2, 1⟩ sr) (repeated sample c) F) := by
  have hsr0 : 0 < sr := by omega
  have hlt : sr < 2 ^ 32 := by omega
  have hreqs : allRequests (biquadParts sample fade a b) (playLoop sr sample n) =
      [(b, set "frequency" 20 Timestamp.zero),
        (b, exponentialRamp "frequency" 20000 Timestamp.zero (Timestamp.fromSeconds 10)),
        (b, exponentialRamp "frequency" 20 (Timestamp.fromSeconds 10) (Timestamp.fromSeconds 20)),
        (a, .sampler (.startNow n)), (a, .sampler (.enableLoop (n + 1) Timestamp.zero
        (Timestamp.fromSamples sample.frames sr)))] := rfl
  obtain ⟨es, y, e1, e2, e3⟩ := C93_row hz ho mf mc sr hm hsr0 hlt hmf (biquadParts sample fade a b)
    (by simp [biquadParts]) (by
      intro p hp
      simp only [biquadParts, List.mem_cons, List.not_mem_nil, or_false] at hp
      rcases hp with rfl | rfl
      · exact hL
      · trivial) (by simp [biquadParts, hab]) (by
      intro p hp
      simp only [biquadParts, List.mem_cons, List.not_mem_nil, or_false] at hp
      rcases hp with rfl | rfl
      · exact ⟨Nat.zero_le _, hch⟩
      · exact ⟨hmc, hmc⟩) (by simp [biquadParts]) _ (by
      rw [hreqs]
      intro x hx
      simp only [List.mem_cons, List.not_mem_nil, or_false] at hx
      rcases hx with rfl | rfl | rfl | rfl | rfl
      · trivial
      · trivial
      · trivial
      · intro _ _ h; cases h
      · exact proper_loop sr hsr0 hlt sample.frames (by omega) _) calls0 hcalls waiting ks hv hdel E hE
  rw [hreqs] at e1
  obtain ⟨z, z1, z2⟩ := e2
  obtain ⟨v, hvd⟩ : ∃ v, v = (FxKind.biquad 2 .lowPass).track sr (es.filterMap (ChainEvent.seen b MixedRequest.parameter?)) b :=
    ⟨_, rfl⟩
  have hother : ∀ name, name ≠ "frequency" → ∀ F < framesIn ks, v name F = (FxKind.biquad 2 .lowPass).default name := by
    intro name hname F hF
    rw [hvd, C87_untouched _ b name mf sr _ ?_ ks es e1 F hF]
    intro j r hr
    split at hr
    · simp [set, exponentialRamp, hab.symm] at hr
      rcases hr with rfl | rfl | rfl <;> exact hname.symm
    · cases hr
  refine ⟨fun F => if F < framesIn ks then v "frequency" F else sweepFrequency (F / sr), ?_, ?_⟩
  · intro F
    dsimp only
    split
    · rename_i hF
      rw [hvd]
      refine frequency_near (.biquad 2 .lowPass) rfl b mf sr hsr hle _ ks es e1 ?_ F hF
      intro j
      by_cases hj : j = 0
      · simp [hj, set, exponentialRamp, hab, MixedRequest.parameter?, ParameterRequest.name, Option.filter]
      · simp [hj]
    · have h0 := (log_sweep ((F : ℝ) / sr)).1
      refine ⟨h0, ?_⟩
      rw [div_self h0.ne', Real.log_one, abs_zero]
      positivity
  intro i k E1 o E2 hik q1 q2 c f F hc hf' hF
  rw [e3 i k E1 o E2 hik q1 q2 c f F hc hf' hF]
  by_cases hi : i < waiting.length
  · simp [hi]
  have hFl : F < framesIn ks := by rw [hF]; exact frame_in hik (by omega) hf'
  have y1 := z2 trivial c F hFl
  simp only [FxKind.heard, FxKind.effect, FxKind.outputs, ← hvd] at y1
  by_cases hc2 : c < 2
  · rw [if_neg (by omega), if_neg (by omega), y1, if_pos hc2, hother "gain" (by decide) F hFl]
    have h1 : (FxKind.biquad 2 .lowPass).default "gain" = 1 := by simp [FxKind.default]
    rw [h1, mul_one]
    congr 1
    refine response_congr F (fun t ht => ?_) (fun t ht => ?_)
    · dsimp only
      rw [if_pos (by omega), hother "q" (by decide) t (by omega), hother "shelf-gain" (by decide) t (by omega)]
      simp [FxKind.default]
    · change (if c < sample.channels then z c t else 0) = _
      split
      · exact C98_loops a sample fade hL hlong mf sr hm hsr0 hlt n (n + 1) (by omega) _ (by
          simp [MixedRequest.sampler?, set, exponentialRamp, hab.symm, Timestamp.zero]) ks es e1 hlen _ z z1 c t (by omega)
      · exact (repeated_silent sample c t (by omega)).symm
  · rw [y1]
    simp [hc2]

/-- C98: a program that connects nodes of any kinds in a row is rendered into a file of two channels that holds every frame
that goes through the row, in order. -/
theorem C98_row_file (hz : ∀ x, N.isZero x = true → x = 0) (ho : ∀ x, N.isOne x = true → x = 1) (value : ℝ → F32)
    (mf mc sr : Nat) (hm : 0 < mf) (hsr : 0 < sr) (hsr' : sr < 2 ^ 32) (hlen : mf * sr ≤ 2 ^ 33) (parts : List Part)
    (hne : parts ≠ []) (hu : ∀ p ∈ parts, p.kind.Usable ∧ p.kind.Renders sr) (hid : (parts.map Part.id).Nodup)
    (hch : ∀ p ∈ parts, p.kind.inputs ≤ mc ∧ p.kind.outputs ≤ mc) (hl : parts.length ≤ 1022)
    (later : List (Nat × MixedRequest)) (hr : ∀ x ∈ allRequests parts later, x.2.Proper)
    (hra : ∀ p ∈ parts, ∀ r, (p.id, r) ∈ allRequests parts later → p.kind.Allows r)
    (env : Nat → Nat → Env) (luck : ApiCall MixedNode MixedRequest → Luck) (s n : Nat) :
    ∃ calls0 file E ks es y, program sr mf parts later true = .ok calls0 ∧
      Wav.render (MixedNode.ops N al) value env (fun i => if i = 0 then calls0.map fun c => (c.command, luck c) else [])
        sr s n (new sr mc mf) = .ok (file, E) ∧
      RenderCalls (S := ℝ) sr (Wav.totalFrames sr s n)
        (fun i => if i = 0 then calls0.map fun c => (c.command, luck c) else []) ks ∧
      framesIn ks = Wav.totalFrames sr s n ∧ ks.length = (Wav.totalFrames sr s n + 1023) / 1024 ∧
      ChainHistory mf sr (fun i => if i = 0 then allRequests parts later else []) ks es ∧
      Through sr (framesIn ks) es parts (fun _ _ => 0) y ∧
      file = interleaved 2 (Wav.totalFrames sr s n) fun c f => Wav.encode (value (if c < mc then y c f else 0)) := by
  obtain ⟨calls0, hc0, hrun⟩ := C93_runs (N := N) (al := al) hz ho mf mc sr hm hsr hsr' hlen parts hu hid hch hl later hra
    true
  obtain ⟨commands, hcom⟩ : ∃ commands : Nat → List (Command MixedNode MixedRequest × Luck),
    commands = fun i => if i = 0 then calls0.map fun c => (c.command, luck c) else [] := ⟨_, rfl⟩
  have hapi : ∀ i, ∀ c ∈ commands i, c.1.Api := by
    intro i c hc
    rw [hcom] at hc
    dsimp only at hc
    split at hc
    · obtain ⟨a, _, rfl⟩ := List.mem_map.mp hc
      exact command_api a
    · cases hc
  have hdel : ∀ ks : List (Call ℝ MixedNode MixedRequest), RenderCalls sr (Wav.totalFrames sr s n) commands ks →
      Delivered (fun i => if i = 0 then calls0 else []) [] ks := by
    intro ks h
    refine ⟨by simp [history], by simp [history], ?_, ?_⟩
    · intro k hk
      rw [(h.shape 0 k hk).1, hcom]
      simp [history, Function.comp_def]
    · intro i k hi hk
      rw [(h.shape i k hk).1, hcom]
      simp [show i ≠ 0 by omega]
  obtain ⟨r, _, _, h1, _⟩ := Wav.renderLoop_ok (ops := MixedNode.ops N al) (mc := mc) (sr := sr) value (Wav.totalFrames sr s n)
    hm env hapi (fun ks h => hrun [] ks (Wav.renderCalls_valid hapi h) (hdel ks h))
    ((Wav.totalFrames sr s n + 1023) / 1024) (by intro i hi; omega)
  have hrender : Wav.render (MixedNode.ops N al) value env commands sr s n (new sr mc mf) = .ok (r.2.2, r.1) := by
    unfold Wav.render
    rw [ok_bind h1]
    rfl
  obtain ⟨ks, x, g1, g2, g3, g4, g5, g6⟩ := Wav.C84_render_calls (MixedNode.ops N al) value mf mc sr hm env commands hapi s n _ _
    hrender
  obtain ⟨es, y, c1, c2, c3⟩ := C93_row hz ho mf mc sr hm hsr hsr' hlen parts hne (fun p hp => (hu p hp).1) hid hch hl later hr
    calls0 hc0 [] ks (Wav.renderCalls_valid hapi g1) (hdel ks g1) r.1 g3
  refine ⟨calls0, _, _, ks, es, y, hc0, by rw [← hcom]; exact hrender, by rw [← hcom]; exact g1, g2, g6, c1, c2, ?_⟩
  rw [g5]
  generalize Wav.totalFrames sr s n = total at *
  apply Wav.interleaved_congr
  intro c f hc hf
  have hi : f / 1024 < ks.length := by
    by_contra hcon
    have := Wav.renderCalls_frames g1 ks.length (le_refl _)
    rw [List.take_length, g2] at this
    omega
  have hk : ks[f / 1024]? = some ks[f / 1024] := List.getElem?_eq_getElem hi
  obtain ⟨k1, k2, k3, _⟩ := g1.shape _ _ hk
  have hsplit : ks = ks.take (f / 1024) ++ ks[f / 1024] :: ks.drop (f / 1024 + 1) := by
    conv_lhs => rw [← List.take_append_drop (f / 1024) ks]
    rw [List.drop_eq_getElem_cons hi]
  rw [hsplit] at g3
  obtain ⟨E1, e1, e2⟩ := (calls_append _ _ _ _).mp g3
  obtain ⟨o, E2, e3, _⟩ := calls_cons e2
  have hfr : f % 1024 < ks[f / 1024].output.frameCount := by rw [k3]; omega
  have a := g4 _ _ E1 o E2 hk e1 e3 c (f % 1024) hc hfr
  have b := c3 _ _ E1 o E2 hk e1 e3 c (f % 1024) _ (by rw [k2]; exact hc) hfr rfl
  rw [List.length_nil, Nat.sub_zero, Wav.renderCalls_frames g1 _ hi.le, a] at b
  injection b with b
  have e1 : f / 1024 * 1024 + f % 1024 = f := by omega
  have e2 : min total (f / 1024 * 1024) = f / 1024 * 1024 := by omega
  rw [e2, e1] at b
  rw [b]
  congr 2
  by_cases h : c < mc
  · rw [if_pos h, if_neg (by simp; omega)]
  · rw [if_neg h, if_pos (by right; omega)]

theorem render_blocks {S P C : Type} [Zero S] {sr total : Nat} {commands : Nat → List (Command P C × Luck)}
    {ks : List (Call S P C)} (h : RenderCalls sr total commands ks) (mf : Nat) :
    Sampler.blocksIn mf ks ≤ (1024 / mf + 1) * ks.length := by
  have : ∀ l : List (Call S P C), (∀ k ∈ l, k.output.frameCount ≤ 1024) → Sampler.blocksIn mf l ≤ (1024 / mf + 1) * l.length := by
    intro l
    induction l with
    | nil => intro _; simp [Sampler.blocksIn]
    | cons k l ih =>
      intro hl
      have h1 := ih fun x hx => hl x (by simp [hx])
      have h2 := Nat.div_le_div_right (c := mf) (hl k (by simp))
      simp only [Sampler.blocksIn, List.map_cons, List.sum_cons, List.length_cons] at *
      rw [Nat.mul_succ]
      omega
  refine this ks fun k hk => ?_
  obtain ⟨i, hi⟩ := List.mem_iff_getElem?.mp hk
  rw [(h.shape i k hi).2.2.1]
  omega

/-- C98, the part that holds: what the example writes that convolves a file with an impulse response,
`examples/src/bin/convolution.rs`, if they have the same number of channels and at most two: in the whole seconds of the
length of both together, on its channels, the mix of the file and of its convolution. What is missing: files and impulse
responses with different numbers of channels (C45), and what is beyond the whole seconds, see
`C98_convolution_short_violated`. -/
theorem C98_convolution_partial (hz : ∀ x, N.isZero x = true → x = 0) (ho : ∀ x, N.isOne x = true → x = 1)
    (value : ℝ → F32) (luck : ApiCall MixedNode MixedRequest → Luck) (env : Nat → Nat → Env) (mf mc sr : Nat) (hm : 0 < mf)
    (hmc : 2 ≤ mc) (hsr : 0 < sr) (hle : sr ≤ 2 ^ 30) (hmf : mf * sr ≤ 2 ^ 33) (sample : Grid ℝ) (hch : sample.channels ≤ 2)
    (fade : Fade ℝ) (hL : 0 < fade.values.length) (impulse : Buf ℝ) (hw : impulse.WF)
    (hi : impulse.channelCount = sample.channels) (hf : 0 < impulse.frameCount) (wet dry : ℝ) (a b g : Id)
    (hid : [a, b, g].Nodup) (n : Nat) (seconds : Nat)
    (hs : seconds = (duration sample.frames sr + duration impulse.frameCount impulse.sampleRate) / 10 ^ 9)
    (hs22 : seconds < 2 ^ 22) (hlen : ((1024 / mf + 1) * ((sr * seconds + 1023) / 1024) + 2) * sr ≤ 2 ^ 32) :
    ∃ E, convolutionFile N al value luck env sr mf mc sample fade impulse wet dry a b g n =
      .ok (interleaved 2 (sr * seconds) fun c F => Wav.encode (value (Sampler.sampleFrame sample c F * dry +
        Convolver.convolved (impulse.sampleOrSilence c) impulse.frameCount (Sampler.sampleFrame sample c) F * wet)), E) := by
  have hlt : sr < 2 ^ 32 := by omega
  simp only [List.nodup_cons, List.mem_cons, List.not_mem_nil, or_false, not_or, not_false_eq_true, and_true] at hid
  obtain ⟨⟨hab, hag⟩, hbg, _⟩ := hid
  have hreqs : allRequests (convolutionParts sample fade impulse wet dry a b g) [(0, .sampler (.startNow n))] =
      [(b, set "dry" dry Timestamp.zero), (b, set "wet" wet Timestamp.zero), (g, set "gain" 1 Timestamp.zero),
        (a, .sampler (.startNow n))] := rfl
  obtain ⟨d, hd⟩ : ∃ d, d = duration sample.frames sr + duration impulse.frameCount impulse.sampleRate := ⟨_, rfl⟩
  obtain ⟨calls0, file, E, ks, es, y, p1, p2, p3, p4, p8, p5, p6, p7⟩ := C98_row_file (N := N) (al := al) hz ho value mf mc sr hm
    hsr hlt hmf (convolutionParts sample fade impulse wet dry a b g) (by simp [convolutionParts]) (by
      intro p hp
      simp only [convolutionParts, List.mem_cons, List.not_mem_nil, or_false] at hp
      rcases hp with rfl | rfl | rfl
      · exact ⟨hL, trivial⟩
      · exact ⟨⟨hw, hi, hf⟩, trivial⟩
      · exact ⟨trivial, trivial⟩) (by simp [convolutionParts, hab, hag, hbg]) (by
      intro p hp
      simp only [convolutionParts, List.mem_cons, List.not_mem_nil, or_false] at hp
      rcases hp with rfl | rfl | rfl
      · exact ⟨Nat.zero_le _, hch.trans hmc⟩
      · exact ⟨hch.trans hmc, by change impulse.channelCount ≤ mc; omega⟩
      · exact ⟨hch.trans hmc, hch.trans hmc⟩) (by simp [convolutionParts]) [(0, .sampler (.startNow n))] (by
      rw [hreqs]
      intro x hx
      simp only [List.mem_cons, List.not_mem_nil, or_false] at hx
      rcases hx with rfl | rfl | rfl | rfl
      · trivial
      · trivial
      · trivial
      · intro _ _ h; cases h) (by
      rw [hreqs]
      intro p hp r hr
      simp only [convolutionParts, List.mem_cons, List.not_mem_nil, or_false] at hp
      simp only [List.mem_cons, List.not_mem_nil, or_false, Prod.mk.injEq] at hr
      rcases hp with rfl | rfl | rfl
      · rcases hr with ⟨h, _⟩ | ⟨h, _⟩ | ⟨h, _⟩ | ⟨_, rfl⟩
        · exact absurd h hab
        · exact absurd h hab
        · exact absurd h hag
        · intro _ _ h; cases h
      · rcases hr with ⟨_, rfl⟩ | ⟨_, rfl⟩ | ⟨h, _⟩ | ⟨h, _⟩
        · simp [NodeKind.Allows, set, ParameterRequest.name, FxKind.names]
        · simp [NodeKind.Allows, set, ParameterRequest.name, FxKind.names]
        · exact absurd h hbg
        · exact absurd h.symm hab
      · rcases hr with ⟨h, _⟩ | ⟨h, _⟩ | ⟨_, rfl⟩ | ⟨h, _⟩
        · exact absurd h.symm hbg
        · exact absurd h.symm hbg
        · simp [NodeKind.Allows, set, ParameterRequest.name, FxKind.names]
        · exact absurd h.symm hag) env luck (d / 10 ^ 9) (d % 10 ^ 9)
  have htot : Wav.totalFrames sr (d / 10 ^ 9) (d % 10 ^ 9) = sr * seconds := by
    rw [Wav.totalFrames_eq sr _ _ (by rw [hd, ← hs]; exact hs22) (Nat.mod_lt _ (by norm_num)), hs, hd]
  rw [htot] at p3 p4 p7 p8
  rw [hreqs] at p5
  refine ⟨E, ?_⟩
  unfold convolutionFile convolutionProgram
  rw [ok_bind p1]
  dsimp only
  rw [← hd, p2, p7]
  congr 2
  have hblocks : (Sampler.blocksIn mf ks + 2) * sr ≤ 2 ^ 32 := by
    refine le_trans (Nat.mul_le_mul_right _ (Nat.add_le_add_right ?_ 2)) hlen
    rw [← p8]
    exact render_blocks p3 mf
  obtain ⟨z, z1, w, w1, w2⟩ := p6
  apply Wav.interleaved_congr
  intro c F hc hF
  rw [← p4] at hF
  rw [if_pos (by omega)]
  congr 2
  have y1 := w2 trivial c F hF
  have y2 := w1 trivial
  simp only [FxKind.heard, FxKind.effect, FxKind.outputs, NodeKind.outputs, hi] at y1 y2
  have set_now : ∀ (k : FxKind) (i : Id) (name : String) (v : ℝ), (∀ j, ((fun i => if i = 0 then
        [(b, set "dry" dry Timestamp.zero), (b, set "wet" wet Timestamp.zero), (g, set "gain" 1 Timestamp.zero),
        (a, MixedRequest.sampler (.startNow n))] else []) j).filterMap
          (fun x => if x.1 = i then x.2.parameter?.filter (fun r => r.name = name) else none) =
        if j = 0 then [ParameterRequest.change name ⟨v, Timestamp.zero, .immediate⟩] else []) →
      k.track sr (es.filterMap (ChainEvent.seen i MixedRequest.parameter?)) i name F = v := by
    intro k i name v h
    rw [C87_set_now k i name mf sr hsr hle _ 0 v h ks es p5 F hF, if_pos ⟨by simp [framesIn], ks_pos hF⟩]
  by_cases hcs : c < sample.channels
  · have hx : ∀ t ≤ F, z c t = Sampler.sampleFrame sample c t := by
      intro t ht
      exact C98_once a sample fade hL mf sr hm hsr hlt n _ (by
        simp [MixedRequest.sampler?, set, Ne.symm hab, Ne.symm hag]) ks es p5 hblocks _ z z1 c t (by omega)
    have y3 := y2 c F hF
    simp only [hcs, if_true] at y1 y3
    rw [y1, set_now _ g "gain" 1 ?_, mul_one, y3, hx F (le_refl _),
      set_now _ b "dry" dry ?_, set_now _ b "wet" wet ?_]
    · congr 2
      refine Finset.sum_congr rfl fun k _ => ?_
      dsimp only
      split
      · rw [hx _ (by omega)]
      · rfl
    all_goals
      intro j
      by_cases hj : j = 0
      · simp [hj, set, hab, hag, hbg, Ne.symm hbg, MixedRequest.parameter?, ParameterRequest.name, Option.filter]
      · simp [hj]
  · rw [y1, if_neg hcs]
    have h0 : Sampler.sampleFrame sample c = fun _ => 0 := by
      funext t
      rw [Sampler.sampleFrame, if_neg (fun h => hcs h.1)]
    rw [h0, Convolver.convolved]
    simp

/-- C98 fails for the length of what is written: a file and an impulse response that are shorter than a second together are
written as an empty file. -/
theorem C98_convolution_short_violated (hz : ∀ x, N.isZero x = true → x = 0) (ho : ∀ x, N.isOne x = true → x = 1)
    (value : ℝ → F32) (luck : ApiCall MixedNode MixedRequest → Luck) (env : Nat → Nat → Env) (mf mc sr : Nat) (hm : 0 < mf)
    (hmc : 2 ≤ mc) (hsr : 0 < sr) (hle : sr ≤ 2 ^ 30) (hmf : mf * sr ≤ 2 ^ 33) (sample : Grid ℝ) (hch : sample.channels ≤ 2)
    (fade : Fade ℝ) (hL : 0 < fade.values.length) (impulse : Buf ℝ) (hw : impulse.WF)
    (hi : impulse.channelCount = sample.channels) (hf : 0 < impulse.frameCount) (wet dry : ℝ) (a b g : Id)
    (hid : [a, b, g].Nodup) (n : Nat)
    (hs : duration sample.frames sr + duration impulse.frameCount impulse.sampleRate < 10 ^ 9) :
    ∃ E, convolutionFile N al value luck env sr mf mc sample fade impulse wet dry a b g n = .ok ([], E) := by
  obtain ⟨E, h⟩ := C98_convolution_partial (N := N) (al := al) hz ho value luck env mf mc sr hm hmc hsr hle hmf sample hch fade
    hL impulse hw hi hf wet dry a b g hid n 0 (Nat.div_eq_of_lt hs).symm (by norm_num) (by
      simp only [Nat.mul_zero]
      norm_num
      omega)
  exact ⟨E, by rw [h]; rfl⟩

/-- C98: all process calls of the example that plays a file succeed. -/
theorem C98_playback_runs (hz : ∀ x, N.isZero x = true → x = 0) (ho : ∀ x, N.isOne x = true → x = 1) (mf mc sr : Nat)
    (hm : 0 < mf) (hmc : 2 ≤ mc) (hsr : 0 < sr) (hlt : sr < 2 ^ 32) (hmf : mf * sr ≤ 2 ^ 33) (sample : Grid ℝ)
    (hch : sample.channels ≤ mc) (hfr : 0 < sample.frames) (fade : Fade ℝ) (hL : 0 < fade.values.length) (level : ℝ) (a b : Id)
    (hab : a ≠ b) (n : Nat) :
    ∃ calls0, playbackProgram sr mf sample fade level a b n = .ok calls0 ∧
      ∀ waiting ks : List (Call ℝ MixedNode MixedRequest), (∀ k ∈ waiting ++ ks, k.Valid) →
        Delivered (fun i => if i = 0 then calls0 else []) waiting ks →
        ∃ E, calls (MixedNode.ops N al) (new sr mc mf) (waiting ++ ks) = .ok E := by
  refine C93_runs (N := N) (al := al) hz ho mf mc sr hm hsr hlt hmf (playbackParts sample fade a b) ?_
    (by simp [playbackParts, hab]) ?_ (by simp [playbackParts]) _ ?_ true
  · intro p hp
    simp only [playbackParts, List.mem_cons, List.not_mem_nil, or_false] at hp
    rcases hp with rfl | rfl
    · exact ⟨hL, trivial⟩
    · exact ⟨trivial, trivial⟩
  · intro p hp
    simp only [playbackParts, List.mem_cons, List.not_mem_nil, or_false] at hp
    rcases hp with rfl | rfl
    · exact ⟨Nat.zero_le _, hch⟩
    · exact ⟨hmc, hmc⟩
  · intro p hp r hr
    simp only [playbackParts, List.mem_cons, List.not_mem_nil, or_false] at hp
    rcases hp with rfl | rfl
    · simp [allRequests, asked, playbackParts, playLoop, hab] at hr
      rcases hr with rfl | rfl
      · simp [NodeKind.Allows, SamplerEvent.startNow, Sampler.ProperLoop]
      · exact proper_loop sr hsr hlt _ hfr _
    · simp [allRequests, asked, playbackParts, playLoop, Ne.symm hab] at hr
      subst hr
      simp [NodeKind.Allows, FxKind.names, set, ParameterRequest.name]

/-- C98: all process calls of the example that sweeps a filter succeed. -/
theorem C98_biquad_runs (hz : ∀ x, N.isZero x = true → x = 0) (ho : ∀ x, N.isOne x = true → x = 1) (mf mc sr : Nat)
    (hm : 0 < mf) (hmc : 2 ≤ mc) (hsr : 0 < sr) (hlt : sr < 2 ^ 32) (hmf : mf * sr ≤ 2 ^ 33) (sample : Grid ℝ)
    (hch : sample.channels ≤ mc) (hfr : 0 < sample.frames) (fade : Fade ℝ) (hL : 0 < fade.values.length) (a b : Id)
    (hab : a ≠ b) (n : Nat) :
    ∃ calls0, biquadProgram sr mf sample fade a b n = .ok calls0 ∧
      ∀ waiting ks : List (Call ℝ MixedNode MixedRequest), (∀ k ∈ waiting ++ ks, k.Valid) →
        Delivered (fun i => if i = 0 then calls0 else []) waiting ks →
        ∃ E, calls (MixedNode.ops N al) (new sr mc mf) (waiting ++ ks) = .ok E := by
  refine C93_runs (N := N) (al := al) hz ho mf mc sr hm hsr hlt hmf (biquadParts sample fade a b) ?_
    (by simp [biquadParts, hab]) ?_ (by simp [biquadParts]) _ ?_ true
  · intro p hp
    simp only [biquadParts, List.mem_cons, List.not_mem_nil, or_false] at hp
    rcases hp with rfl | rfl
    · exact ⟨hL, trivial⟩
    · exact ⟨trivial, trivial⟩
  · intro p hp
    simp only [biquadParts, List.mem_cons, List.not_mem_nil, or_false] at hp
    rcases hp with rfl | rfl
    · exact ⟨Nat.zero_le _, hch⟩
    · exact ⟨hmc, hmc⟩
  · intro p hp r hr
    simp only [biquadParts, List.mem_cons, List.not_mem_nil, or_false] at hp
    rcases hp with rfl | rfl
    · simp [allRequests, asked, biquadParts, playLoop, hab] at hr
      rcases hr with rfl | rfl
      · simp [NodeKind.Allows, SamplerEvent.startNow, Sampler.ProperLoop]
      · exact proper_loop sr hsr hlt _ hfr _
    · simp [allRequests, asked, biquadParts, playLoop, Ne.symm hab] at hr
      rcases hr with rfl | rfl | rfl <;>
        simp [NodeKind.Allows, FxKind.names, set, exponentialRamp, ParameterRequest.name]

/-! ### Examples -/

/-- A file of one channel and four frames for examples. -/
noncomputable def exampleFile : Grid ℝ := ⟨1, 4, fun _ f => f + 1⟩

/-- It is played again and again in a session of three calls. -/
example : ∃ calls0 E, playbackProgram 44100 16 exampleFile ⟨[0, 1]⟩ (9 / 10) 1 2 0 = .ok calls0 ∧
    (∀ k ∈ [mixedCall []] ++ [mixedCall calls0, mixedCall []], k.Valid) ∧
    Delivered (fun i => if i = 0 then calls0 else []) [mixedCall []] [mixedCall calls0, mixedCall []] ∧
    calls (MixedNode.ops Fx.plain fun _ _ _ _ => (0, 0)) (new 44100 2 16)
      ([mixedCall []] ++ [mixedCall calls0, mixedCall []]) = .ok E ∧
    (Sampler.blocksIn 16 [mixedCall calls0, mixedCall []] +
      3 * (framesIn [mixedCall calls0, mixedCall []] / exampleFile.frames) + 6) * 44100 ≤ 2 ^ 32 := by
  obtain ⟨calls0, h1, h2⟩ := C98_playback_runs (N := Fx.plain) (al := fun _ _ _ _ => (0, 0)) (by simp [Fx.plain])
    (by simp [Fx.plain]) 16 2 44100 (by norm_num) (by norm_num) (by norm_num) (by norm_num) (by norm_num) exampleFile
    (by simp [exampleFile]) (by simp [exampleFile]) ⟨[0, 1]⟩ (by simp) (9 / 10) 1 2 (by decide) 0
  obtain ⟨E, hE⟩ := h2 _ _ (sessionValid _) (mixedCall_delivered calls0)
  refine ⟨calls0, E, h1, sessionValid _, mixedCall_delivered calls0, hE, ?_⟩
  simp [Sampler.blocksIn, framesIn, mixedCall, exampleFile, Buf.frameCount]

/-- A filter is swept over it in a session of three calls. -/
example : ∃ calls0 E, biquadProgram 44100 16 exampleFile ⟨[0, 1]⟩ 1 2 0 = .ok calls0 ∧
    (∀ k ∈ [mixedCall []] ++ [mixedCall calls0, mixedCall []], k.Valid) ∧
    Delivered (fun i => if i = 0 then calls0 else []) [mixedCall []] [mixedCall calls0, mixedCall []] ∧
    calls (MixedNode.ops Fx.plain fun _ _ _ _ => (0, 0)) (new 44100 2 16)
      ([mixedCall []] ++ [mixedCall calls0, mixedCall []]) = .ok E := by
  obtain ⟨calls0, h1, h2⟩ := C98_biquad_runs (N := Fx.plain) (al := fun _ _ _ _ => (0, 0)) (by simp [Fx.plain])
    (by simp [Fx.plain]) 16 2 44100 (by norm_num) (by norm_num) (by norm_num) (by norm_num) (by norm_num) exampleFile
    (by simp [exampleFile]) (by simp [exampleFile]) ⟨[0, 1]⟩ (by simp) 1 2 (by decide) 0
  obtain ⟨E, hE⟩ := h2 _ _ (sessionValid _) (mixedCall_delivered calls0)
  exact ⟨calls0, E, h1, sessionValid _, mixedCall_delivered calls0, hE⟩

/-- The frames of a sampler with a file of four frames, among requests to other nodes. -/
example (x z : Nat → Nat → ℝ)
    (hz : (NodeKind.sampler exampleFile ⟨[0, 1]⟩).Makes 44100 8 1 ([] ++ [((1 : Id), MixedRequest.sampler (.startNow 0)),
      (2, set "gain" 1 0), (1, .sampler (.enableLoop 1 0 (Timestamp.fromSamples (exampleFile.frames : ℚ) 44100)))].map
      (fun x => ChainEvent.change x.1 x.2) ++
      [(Timestamp.incrementedBySamples 0 0 44100, 8)].map fun b => ChainEvent.block b.1 b.2) x z) : z 0 6 = 3 := by
  have hfr : framesIn ([mixedCall []] : List (Call ℝ MixedNode MixedRequest)) = 8 := by simp [framesIn, mixedCall, Buf.frameCount]
  rw [C98_loops (P := MixedNode) 1 exampleFile ⟨[0, 1]⟩ (by simp) (by simp [exampleFile]) 16 44100 (by norm_num) (by norm_num)
    (by norm_num) 0 1 (by norm_num) [((1 : Id), MixedRequest.sampler (.startNow 0)), (2, set "gain" 1 0),
      (1, .sampler (.enableLoop 1 0 (Timestamp.fromSamples (exampleFile.frames : ℚ) 44100)))]
    (by simp [MixedRequest.sampler?, set]) _ _ (mixedSession _)
    (by simp [Sampler.blocksIn, framesIn, mixedCall, exampleFile, Buf.frameCount]) x z (by rw [hfr]; exact hz) 0 6
    (by rw [hfr]; norm_num)]
  simp [repeated, exampleFile, Sampler.sampleFrame]
  norm_num

theorem lasts_second : duration 44100 44100 = 1000000000 := by rw [duration, Nat.floor_eq_iff (by norm_num)]; norm_num

theorem lasts_half : duration 22050 44100 = 500000000 := by rw [duration, Nat.floor_eq_iff (by norm_num)]; norm_num

theorem lasts_frame : duration 1 44100 = 22676 := by rw [duration, Nat.floor_eq_iff (by norm_num)]; norm_num

/-- A file of a second through an impulse of one frame: what is written. -/
example : ∃ E, convolutionFile Fx.plain (fun _ _ _ _ => (0, 0)) (fun _ => .nan) (fun _ => .plain) (fun _ _ => Env.plain)
    44100 512 2 ⟨1, 44100, fun _ _ => 1⟩ ⟨[0, 1]⟩ (.owned [1] 1 1 44100) 1 1 1 2 3 0 =
      .ok (interleaved 2 44100 fun _ _ => Wav.encode .nan, E) :=
  C98_convolution_partial (N := Fx.plain) (by simp [Fx.plain]) (by simp [Fx.plain]) _ _ _ 512 2 44100 (by norm_num)
    (by norm_num) (by norm_num) (by norm_num) (by norm_num) ⟨1, 44100, fun _ _ => 1⟩ (by simp) ⟨[0, 1]⟩ (by simp)
    (.owned [1] 1 1 44100) (by simp [Buf.WF]) rfl (by simp [Buf.frameCount]) 1 1 1 2 3 (by decide) 0 1
    (by simp only [Buf.frameCount, Buf.sampleRate, lasts_second, lasts_frame]; norm_num) (by norm_num) (by norm_num)

/-- A file of half a second through it: nothing is written. -/
example : ∃ E, convolutionFile Fx.plain (fun _ _ _ _ => (0, 0)) (fun _ => .nan) (fun _ => .plain) (fun _ _ => Env.plain)
    44100 512 2 ⟨1, 22050, fun _ _ => 1⟩ ⟨[0, 1]⟩ (.owned [1] 1 1 44100) 1 1 1 2 3 0 = .ok ([], E) :=
  C98_convolution_short_violated (N := Fx.plain) (by simp [Fx.plain]) (by simp [Fx.plain]) _ _ _ 512 2 44100 (by norm_num)
    (by norm_num) (by norm_num) (by norm_num) (by norm_num) ⟨1, 22050, fun _ _ => 1⟩ (by simp) ⟨[0, 1]⟩ (by simp)
    (.owned [1] 1 1 44100) (by simp [Buf.WF]) rfl (by simp [Buf.frameCount]) 1 1 1 2 3 (by decide) 0
    (by simp only [Buf.frameCount, Buf.sampleRate, lasts_half, lasts_frame]; norm_num)

end RowExamples
end Rawdio
