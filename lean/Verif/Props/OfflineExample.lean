import Verif.Lemmas.OfflineExample
import Verif.Lemmas.Oscillator
import Verif.Lemmas.OscillatorRun
import Mathlib.NumberTheory.Real.Irrational
import Verif.Props.Network
import Verif.Props.Effects

/-!
# What an example program renders (C86)
-/

namespace Rawdio
namespace OfflineExample

open Processor Network

variable {N : Platform}

/-- C86: the example that renders oscillators through a gain and a pan: every frame is the sum of the oscillators, each
at its frequency and level, times the gain, and turned down on the side that the pan leads away from. -/
theorem C86_voices (hz : ∀ x, N.isZero x = true → x = 0) (ho : ∀ x, N.isOne x = true → x = 1) (mf mc sr : Nat)
    (hm : 0 < mf) (hmc : 2 ≤ mc) (hsr : 0 < sr) (hle : sr ≤ 2 ^ 30) (voices : List Voice)
    (hf : ∀ v ∈ voices, 0 < v.frequency) (g p : Id) (hd : Distinct voices g p) (level : ℝ)
    (pans : List (ParameterChange ℝ)) (calls0 : List (ApiCall FxNode ParameterRequest))
    (hcalls : program sr mf voices g p level pans = .ok calls0)
    (waiting ks : List (Call ℝ FxNode ParameterRequest)) (hv : ∀ k ∈ waiting ++ ks, k.Valid)
    (hdel : Delivered (fun i => if i = 0 then calls0 else []) waiting ks) (E : Processor ℝ FxNode)
    (hE : calls (Fx.ops N) (new sr mc mf) (waiting ++ ks) = .ok E) :
    ∃ es, ChainHistory mf sr (fun i => if i = 0 then requests calls0 else []) ks es ∧
      ∀ i k E1 o E2, (waiting ++ ks)[i]? = some k →
        calls (Fx.ops N) (new sr mc mf) ((waiting ++ ks).take i) = .ok E1 →
        E1.process (Fx.ops N) k.env k.commands k.input k.output = .ok (o, E2) →
        ∀ c f F, c < k.output.channelCount → f < k.output.frameCount →
          F = framesIn (ks.take (i - waiting.length)) + f →
          o.sample? c f = some (if i < waiting.length ∨ 2 ≤ c then 0 else
            (voices.map fun v => Oscillator.tableAt (Oscillator.makeSine 8192 1) (v.frequency * (F + 1) / sr) * v.level).sum *
              level * min (1 + if c = 0 then - (FxKind.pan 2).track sr es p "pan" F
                else (FxKind.pan 2).track sr es p "pan" F) 1) := by
  rw [program_eq] at hcalls
  injection hcalls with hcalls
  rw [← allCalls] at hcalls
  subst hcalls
  obtain ⟨d1, d2, d3, d4⟩ := id hd
  have hreq : ∀ i, requests ((fun i => if i = 0 then allCalls voices g p level pans else []) i) =
      if i = 0 then requests (allCalls voices g p level pans) else [] := by
    intro i
    dsimp only
    split <;> rfl
  have hP : Network.Program (fun i => if i = 0 then allCalls voices g p level pans else []) := by
    refine ⟨builds_all, typed_all hd, ?_, ?_⟩
    · simp only [if_true, allCalls, linkCalls]
      simp
    · intro i hi c hc
      simp only [show ¬ i = 0 by omega, if_false] at hc
      cases hc
  have hmade : Made sr mf (voices.map (fun v => (v.id, kind v)) ++ [(g, .gain 2), (p, .pan 2)])
      (made (allCalls voices g p level pans)) := by
    rw [made_all]
    refine List.rel_append ?_ (.cons rfl (.cons rfl .nil))
    clear d1 d2 d3 hd hf hdel hP hreq
    induction voices with
    | nil => exact .nil
    | cons v vs ih => exact .cons rfl ih
  have husable : ∀ q ∈ voices.map (fun v => (v.id, kind v)) ++ [(g, .gain 2), (p, .pan 2)], q.2.Usable := by
    intro q hq
    simp only [List.mem_append, List.mem_map, List.mem_cons, List.not_mem_nil, or_false] at hq
    rcases hq with ⟨v, _, rfl⟩ | rfl | rfl
    · refine ⟨by norm_num, by rw [Oscillator.makeSine_length]; decide, ?_⟩
      rw [List.getD_eq_getElem?_getD, Oscillator.makeSine_get _ _ _ (by decide)]
      simp
    · trivial
    · exact le_refl _
  obtain ⟨es, sig, h1, h2, h3⟩ := C86_effects hz ho mf mc sr hm hsr _ hP plain_all _ husable hmade waiting ks hv hdel E hE
  simp only [hreq] at h1
  refine ⟨es, h1, ?_⟩
  intro i k E1 o E2 hik g1 g2 c f F hc hf' hF
  have hpos : ∀ F < framesIn ks, 0 < ks.length := by
    intro F hF
    rcases ks with _ | ⟨a, ks⟩
    · simp [framesIn] at hF
    · simp
  have hset : ∀ (q : FxKind) (j : Id) (x : ℝ), (requests (allCalls voices g p level pans)).filter
      (fun y => y.1 = j ∧ y.2.name = "gain") = [(j, .change "gain" ⟨x, Timestamp.zero, .immediate⟩)] →
      ∀ F < framesIn ks, q.track sr es j "gain" F = x := by
    intro q j x hx F hF
    rw [Fx.C83_set_now q j "gain" mf sr hsr hle _ 0 x (by
      intro l
      by_cases hl : l = 0
      · simp only [if_pos hl]
        exact hx
      · simp only [if_neg hl]
        rfl) ks es h1 F hF, if_pos]
    exact ⟨by simp [framesIn], hpos F hF⟩
  have hlevel : ∀ v ∈ voices, ∀ F < framesIn ks, (kind v).track sr es v.id "gain" F = v.level := by
    intro v hv
    apply hset
    rw [requests_own, if_neg (fun h : g = v.id ∧ _ => d2 (h.1 ▸ List.mem_map_of_mem hv)),
      if_neg (fun h => absurd h.2 (by decide))]
    classical
    have : voices.filter (fun w => w.id = v.id ∧ "gain" = "gain") = [v] := by
      have he : ∀ w ∈ voices, (decide (w.id = v.id ∧ "gain" = "gain")) = decide (w = v) := by
        intro w hw
        simp only [and_true, decide_eq_decide]
        exact ⟨fun h => List.inj_on_of_nodup_map d1 hw hv h, fun h => by rw [h]⟩
      rw [List.filter_congr he, List.filter_eq]
      have hn : voices.Nodup := List.Nodup.of_map _ d1
      rw [List.count_eq_one_of_mem hn hv]
      rfl
    rw [this]
    rfl
  have hgain : ∀ F < framesIn ks, (FxKind.gain 2).track sr es g "gain" F = level := by
    apply hset
    rw [requests_own, if_pos ⟨rfl, rfl⟩, if_neg (fun h => absurd h.2 (by decide))]
    have : voices.filter (fun w => w.id = g ∧ "gain" = "gain") = [] := by
      rw [List.filter_eq_nil_iff]
      intro w hw h
      exact d2 ((of_decide_eq_true h).1 ▸ List.mem_map_of_mem hw)
    rw [this]
    rfl
  have hfreq : ∀ v ∈ voices, ∀ F < framesIn ks, (kind v).track sr es v.id "frequency" F = v.frequency := by
    intro v hv F hF
    rw [Fx.C83_untouched (kind v) v.id "frequency" mf sr _ ?_ ks es h1 F hF]
    · rfl
    · intro l x hx hxx
      by_cases hl : l = 0
      · simp only [if_pos hl] at hx
        have hmem : x ∈ (requests (allCalls voices g p level pans)).filter
            (fun y => y.1 = v.id ∧ y.2.name = "frequency") := List.mem_filter.mpr ⟨hx, decide_eq_true hxx⟩
        rw [requests_own] at hmem
        simp at hmem
      · simp only [if_neg hl] at hx
        cases hx
  have hosc : ∀ v ∈ voices, ∀ c < 2, ∀ F < framesIn ks, sig v.id c F =
      Oscillator.tableAt (Oscillator.makeSine 8192 1) (v.frequency * (F + 1) / sr) * v.level := by
    intro v hv c hc F hF
    have := h2 (v.id, kind v) (by simp only [List.mem_append, List.mem_map]; exact .inl ⟨v, hv, rfl⟩)
      (fun F hF => by rw [hfreq v hv F hF]; exact hf v hv) c F hF
    dsimp only at this
    rw [this, FxKind.heard, if_pos (by exact hc)]
    simp only [kind, FxKind.effect]
    have hc : Oscillator.cycles ((kind v).track sr es v.id "frequency") sr (F + 1) = v.frequency * (F + 1) / sr := by
      rw [Oscillator.cycles, Finset.sum_congr rfl fun t ht => by
        rw [hfreq v hv t (by have := Finset.mem_range.mp ht; omega)], Finset.sum_const, Finset.card_range, nsmul_eq_mul]
      push_cast
      ring
    have hl := hlevel v hv F hF
    simp only [kind] at hc hl
    rw [hc, hl]
    rfl
  have hmix : ∀ c < 2, ∀ F < framesIn ks, sig g c F =
      (voices.map fun v => Oscillator.tableAt (Oscillator.makeSine 8192 1) (v.frequency * (F + 1) / sr) * v.level).sum *
        level := by
    intro c hc F hF
    have := h2 (g, .gain 2) (by simp) trivial c F hF
    dsimp only at this
    rw [this, FxKind.heard, if_pos (by exact hc)]
    simp only [FxKind.effect]
    rw [hgain F hF]
    congr 1
    simp only [if_true, arriving, links_all, input_all]
    have hfil : List.filter (fun l : Link => l.dst = g) (voices.map (fun v => ⟨v.id, g, 0, 0, 2⟩) ++ [⟨g, p, 0, 0, 2⟩]) =
        voices.map fun v => ⟨v.id, g, 0, 0, 2⟩ := by
      rw [List.filter_append, List.filter_eq_self.mpr, List.filter_eq_nil_iff.mpr, List.append_nil]
      · intro l hl
        rw [List.mem_singleton] at hl
        subst hl
        simpa using Ne.symm d4
      · intro l hl
        obtain ⟨v, _, rfl⟩ := List.mem_map.mp hl
        simp
    rw [hfil, List.map_map, if_neg (by simp), ← List.sum_eq_foldl]
    congr 1
    apply List.map_congr_left
    intro v hv
    simp only [Function.comp_apply, Link.brings]
    rw [if_pos (by omega), ← hosc v hv c hc F hF]
    simp
  rw [h3 i k E1 o E2 hik g1 g2 c f hc hf']
  by_cases hi : i < waiting.length
  · rw [if_pos hi, if_pos (.inl hi)]
  · rw [if_neg hi, ← hF, heard]
    simp only [if_true, output_all, Option.elim]
    have hFl : F < framesIn ks := by
      rw [List.getElem?_append_right (by omega)] at hik
      have hlt : i - waiting.length < ks.length := by
        by_contra hn; rw [List.getElem?_eq_none (by omega)] at hik; cases hik
      have e : ks = ks.take (i - waiting.length) ++ k :: ks.drop (i - waiting.length + 1) := by
        conv_lhs => rw [← List.take_append_drop (i - waiting.length) ks]
        rw [List.drop_eq_getElem_cons hlt]
        rw [List.getElem?_eq_getElem hlt] at hik
        injection hik with hik
        rw [hik]
      rw [hF]
      conv_rhs => rw [e]
      simp only [framesIn, List.map_append, List.sum_append, List.map_cons, List.sum_cons]
      omega
    have hpan := h2 (p, .pan 2) (by simp) trivial c F hFl
    dsimp only at hpan
    rw [hpan, FxKind.heard]
    by_cases hc2 : c < 2
    · rw [if_pos (show c < mc by omega), if_pos (show c < (FxKind.pan 2).outputs by exact hc2),
        if_neg (show ¬(i < waiting.length ∨ 2 ≤ c) by omega)]
      simp only [FxKind.effect]
      congr 2
      rw [← hmix c hc2 F hFl]
      simp only [if_true, arriving, links_all, input_all]
      have hfil : List.filter (fun l : Link => l.dst = p) (voices.map (fun v => ⟨v.id, g, 0, 0, 2⟩) ++ [⟨g, p, 0, 0, 2⟩]) =
          [⟨g, p, 0, 0, 2⟩] := by
        rw [List.filter_append, List.filter_eq_nil_iff.mpr, List.nil_append, List.filter_eq_self.mpr]
        · intro l hl
          rw [List.mem_singleton] at hl
          subst hl
          simp
        · intro l hl
          obtain ⟨v, _, rfl⟩ := List.mem_map.mp hl
          simpa using d4
      rw [hfil, if_neg (by simp)]
      simp only [List.map_cons, List.map_nil, List.foldl_cons, List.foldl_nil, Link.brings, zero_add]
      rw [if_pos (by omega)]
      simp
    · rw [if_neg (show ¬c < (FxKind.pan 2).outputs by exact hc2), if_pos (show i < waiting.length ∨ 2 ≤ c by omega)]
      simp

/-- C86: all of the example can be rendered, as long as no oscillator comes to a whole number of cycles at a frame (when
it would panic, C46). -/
theorem C86_voices_runs (hz : ∀ x, N.isZero x = true → x = 0) (ho : ∀ x, N.isOne x = true → x = 1) (mf mc sr : Nat)
    (hm : 0 < mf) (hmc : 2 ≤ mc) (hsr : 0 < sr) (voices : List Voice) (hl : voices.length ≤ 1020)
    (hf : ∀ v ∈ voices, 0 < v.frequency ∧ ∀ n : ℕ, 0 < n → ¬ Oscillator.Whole (v.frequency * n / sr)) (g p : Id)
    (hd : Distinct voices g p) (level : ℝ) (pans : List (ParameterChange ℝ)) :
    ∃ calls0, program sr mf voices g p level pans = .ok calls0 ∧
      ∀ waiting ks : List (Call ℝ FxNode ParameterRequest), (∀ k ∈ waiting ++ ks, k.Valid) →
        Delivered (fun i => if i = 0 then calls0 else []) waiting ks →
        ∃ E, calls (Fx.ops N) (new sr mc mf) (waiting ++ ks) = .ok E := by
  refine ⟨allCalls voices g p level pans, by rw [program_eq]; rfl, ?_⟩
  intro waiting ks hv hdel
  have hP : Network.Program (fun i => if i = 0 then allCalls voices g p level pans else []) := by
    refine ⟨builds_all, typed_all hd, ?_, ?_⟩
    · simp only [if_true, allCalls, linkCalls]
      simp
    · intro i hi c hc
      simp only [show ¬ i = 0 by omega, if_false] at hc
      cases hc
  have hk : ∀ i k, (i, k) ∈ [(g, FxKind.gain 2), (p, FxKind.pan 2)] → k.Usable ∧ k.NotOscillator := by
    intro i k h
    simp only [List.mem_cons, Prod.mk.injEq, List.not_mem_nil, or_false] at h
    rcases h with ⟨_, rfl⟩ | ⟨_, rfl⟩
    · exact ⟨trivial, trivial⟩
    · exact ⟨by simp [FxKind.Usable], trivial⟩
  refine C86_runs (Fx.ops N) mf mc sr hm _ _
    (Fx.steady_healthy hz ho hsr (Fx.fx_healthy (mf := mf) hz ho hsr hk) (fun i => i ∈ voices.map Voice.id)) _ hP ?_ ?_
    waiting ks hv hdel
  · intro i c hc
    by_cases hi : i = 0
    · simp only [hi, if_true, allCalls, voiceCalls, restCalls, linkCalls, List.mem_append, List.mem_flatMap, List.mem_cons,
        List.mem_map, List.not_mem_nil, or_false] at hc
      obtain ⟨d1, d2, d3, d4⟩ := hd
      rcases hc with ((⟨v, hv, rfl | rfl⟩ | ((rfl | rfl) | rfl | ⟨c, _, rfl⟩)) | (⟨v, _, rfl⟩ | (rfl | rfl | rfl))) <;>
        try trivial
      · refine .inr ⟨List.mem_map_of_mem hv, rfl, rfl, by simp [oscNode], Oscillator.new (Oscillator.makeSine Oscillator.tableSize 1),
          v.frequency, 0, .new realArith v.frequency, .new realArith 1, rfl, ?_, (hf v hv).1, ?_, ?_, rfl, Fx.quiet_new _ _, rfl⟩
        · simp [Oscillator.new, Oscillator.makeSine, Oscillator.tableSize]
        · intro n
          exact (hf v hv).2 (n + 1) (by omega)
        · exact ⟨le_rfl, zero_le_one, 0, by simp [Oscillator.new]⟩
      · refine ⟨?_, fun _ => rfl⟩
        intro k hk
        simp only [List.mem_cons, Prod.mk.injEq, List.not_mem_nil, or_false] at hk
        rcases hk with ⟨h, _⟩ | ⟨h, _⟩
        · exact absurd (List.mem_map.mpr ⟨v, hv, h⟩) d2
        · exact absurd (List.mem_map.mpr ⟨v, hv, h⟩) d3
      · exact .inl (Fx.new_sound (i := g) (k := .gain 2) hm hsr (by simp) trivial trivial rfl)
      · refine ⟨?_, fun _ => rfl⟩
        intro k hk
        simp only [List.mem_cons, Prod.mk.injEq, List.not_mem_nil, or_false] at hk
        rcases hk with ⟨_, rfl⟩ | ⟨h, _⟩
        · simp [FxKind.names, ParameterRequest.name]
        · exact absurd h d4
      · exact .inl (Fx.new_sound (i := p) (k := .pan 2) hm hsr (by simp) (by simp [FxKind.Usable]) trivial rfl)
      · refine ⟨?_, fun h => absurd h d3⟩
        intro k hk
        simp only [List.mem_cons, Prod.mk.injEq, List.not_mem_nil, or_false] at hk
        rcases hk with ⟨h, _⟩ | ⟨_, rfl⟩
        · exact absurd h.symm d4
        · simp [FxKind.names, ParameterRequest.name]
    · simp only [hi, if_false] at hc
      cases hc
  · intro n
    have : (List.range n).flatMap (fun i => if i = 0 then allCalls voices g p level pans else []) =
        if n = 0 then [] else allCalls voices g p level pans := by
      induction n with
      | zero => rfl
      | succ n ih =>
        rw [List.range_succ, List.flatMap_append, ih]
        by_cases hn : n = 0
        · subst hn; simp
        · simp [hn]
    rw [this]
    split
    · trivial
    · exact allowed_and _ _ (typed_all hd) (careful_all hmc hd (by omega))

/-! ### An example -/

/-- Two oscillators, for examples. -/
noncomputable def twoVoices : List Voice := [⟨1, 440 * √2, 1 / 2⟩, ⟨2, 660 * √2, 1 / 4⟩]

theorem not_whole {a : ℚ} (ha : 0 < a) (n : ℕ) (hn : 0 < n) (sr : ℕ) (hsr : 0 < sr) :
    ¬ Oscillator.Whole (a * √2 * n / sr) := by
  rintro ⟨m, hm⟩
  have h1 : (sr : ℝ) ≠ 0 := by exact_mod_cast hsr.ne'
  have h2 : (n : ℝ) ≠ 0 := by exact_mod_cast hn.ne'
  have h3 : (a : ℝ) ≠ 0 := by exact_mod_cast ha.ne'
  apply irrational_sqrt_two
  refine ⟨m * sr / (a * n), ?_⟩
  push_cast
  rw [div_eq_iff h1] at hm
  rw [div_eq_iff (mul_ne_zero h3 h2), ← hm]
  ring

/-- A process call of eight frames in which all calls of the program arrive, or none. -/
def voicesCall (as : List (ApiCall FxNode ParameterRequest)) : Call ℝ FxNode ParameterRequest :=
  ⟨as.map fun c => (c.command, .plain), .owned (List.replicate 16 0) 2 8 48000, .owned (List.replicate 16 0) 2 8 48000,
    fun _ => Env.plain⟩

/-- Two oscillators in a session of three calls, of which the first is before the program has made its calls. -/
theorem voices_session (pans : List (ParameterChange ℝ)) : ∃ calls0 E, program 48000 16 twoVoices 3 4 (1 / 2) pans = .ok calls0 ∧ Distinct twoVoices 3 4 ∧
    (∀ k ∈ [voicesCall []] ++ [voicesCall calls0, voicesCall []], k.Valid) ∧
    Delivered (fun i => if i = 0 then calls0 else []) [voicesCall []] [voicesCall calls0, voicesCall []] ∧
    calls (Fx.ops Fx.plain) (new 48000 2 16) ([voicesCall []] ++ [voicesCall calls0, voicesCall []]) = .ok E := by
  have hd : Distinct twoVoices 3 4 := by simp [Distinct, twoVoices]
  obtain ⟨calls0, h1, h2⟩ := C86_voices_runs (N := Fx.plain) (by simp [Fx.plain]) (by simp [Fx.plain]) 16 2 48000
    (by norm_num) (le_refl _) (by norm_num) twoVoices (by simp [twoVoices]) (by
      intro v hv
      simp only [twoVoices, List.mem_cons, List.not_mem_nil, or_false] at hv
      rcases hv with rfl | rfl
      · exact ⟨by positivity, fun n hn => by have := not_whole (a := 440) (by norm_num) n hn 48000 (by norm_num); push_cast at this ⊢; exact this⟩
      · exact ⟨by positivity, fun n hn => by have := not_whole (a := 660) (by norm_num) n hn 48000 (by norm_num); push_cast at this ⊢; exact this⟩)
    3 4 hd (1 / 2) pans
  have hv : ∀ as, (voicesCall as).Valid := by
    intro as
    refine ⟨?_, ?_, trivial, le_refl _, ?_⟩
    · simp [voicesCall, Buf.WF]
    · simp [voicesCall, Buf.WF]
    · intro x hx
      obtain ⟨y, _, rfl⟩ := List.mem_map.mp hx
      exact command_api y
  have hval : ∀ k ∈ [voicesCall []] ++ [voicesCall calls0, voicesCall []], k.Valid := by
    intro k hk
    simp only [List.cons_append, List.nil_append, List.mem_cons, List.not_mem_nil, or_false] at hk
    rcases hk with rfl | rfl | rfl <;> exact hv _
  have hdel : Delivered (fun i => if i = 0 then calls0 else []) [voicesCall []] [voicesCall calls0, voicesCall []] := by
    refine ⟨?_, ⟨_, rfl⟩, ?_, ?_⟩
    · simp [history, voicesCall]
    · intro k hk
      cases hk
      simp [history, voicesCall, Function.comp_def]
    · intro i k hi hk
      match i with
      | 1 => cases hk; rfl
      | i + 2 => cases hk
  obtain ⟨E, hE⟩ := h2 _ _ hval hdel
  exact ⟨calls0, E, h1, hd, hval, hdel, hE⟩

/-- The pan goes from left to right. -/
example : ∃ calls0 E, program 48000 16 twoVoices 3 4 (1 / 2)
      [⟨-1, 0, .immediate⟩, ⟨1, 2 ^ 32, .linear 0⟩] = .ok calls0 ∧ Distinct twoVoices 3 4 ∧
    (∀ k ∈ [voicesCall []] ++ [voicesCall calls0, voicesCall []], k.Valid) ∧
    Delivered (fun i => if i = 0 then calls0 else []) [voicesCall []] [voicesCall calls0, voicesCall []] ∧
    calls (Fx.ops Fx.plain) (new 48000 2 16) ([voicesCall []] ++ [voicesCall calls0, voicesCall []]) = .ok E :=
  voices_session _

end OfflineExample
end Rawdio
