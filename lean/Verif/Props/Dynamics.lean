import Verif.Lemmas.Dynamics
import Verif.Props.Effects
import Verif.Props.Waveshaper

/-!
# Compressors and waveshapers in an engine (C89)
-/

namespace Rawdio
namespace Fx

open Processor Compressor

variable {N : Platform}

/-- A session of an engine with one effect, and its last process call. -/
structure OneEffect (N : Platform) (i : Id) (kind : FxKind) (mf mc sr : Nat)
    (changes : Nat → List (Id × ParameterRequest)) (ks : List (Call ℝ FxNode ParameterRequest))
    (k : Call ℝ FxNode ParameterRequest) (o : Buf ℝ) : Prop where
  frames : 0 < mf
  rate : 0 < sr
  zero : ∀ x, N.isZero x = true → x = 0
  one : ∀ x, N.isOne x = true → x = 1
  valid : ∀ l ∈ ks ++ [k], l.Valid
  played : ∃ d E E', kind.make sr mf i = .ok d ∧ PlaysChain true [d] changes (ks ++ [k]) ∧
    calls (ops N) (new sr mc mf) ks = .ok E ∧ E.process (ops N) k.env k.commands k.input k.output = .ok (o, E')

theorem OneEffect.stream {i : Id} {kind : FxKind} {mf mc sr : Nat} {changes : Nat → List (Id × ParameterRequest)}
    {ks : List (Call ℝ FxNode ParameterRequest)} {k : Call ℝ FxNode ParameterRequest} {o : Buf ℝ}
    (h : OneEffect N i kind mf mc sr changes ks k o) (hu : kind.Usable) :
    ∃ es, ChainHistory mf sr changes (ks ++ [k]) es ∧
      (kind.Sounding sr (kind.track sr es i) (sessionInput true mc (ks ++ [k])) (framesIn (ks ++ [k])) →
        ∀ c f, c < k.output.channelCount → f < k.output.frameCount → o.sample? c f = some (if c < mc ∧ c < kind.outputs then
          kind.effect sr (kind.track sr es i) (sessionInput true mc (ks ++ [k])) c (framesIn ks + f) else 0)) := by
  obtain ⟨d, E, E', h1, h2, h3, h4⟩ := h.played
  obtain ⟨es, e1, e2⟩ := C83_stream h.zero h.one true [(i, kind)] (by simp) (by simpa using hu) mf mc sr h.frames h.rate
    [d] (by rw [List.mapM_cons, h1]; rfl) changes ks k h.valid h2 E E' h3 o h4
  refine ⟨es, e1, ?_⟩
  intro hs c f hc hf
  rw [e2 ⟨by rw [Chain.history_total e1]; exact hs, trivial⟩ c f hc hf]
  simp only [heardThrough, FxKind.heard]
  congr 1
  by_cases a : c < mc <;> by_cases b : c < kind.outputs <;> simp [a, b]

/-- C89: times in milliseconds are taken with an error of at most half a nanosecond. -/
theorem C89_times (t : ℝ) (ht : 0 ≤ t) : |(nanoseconds t : ℝ) - t * 10 ^ 6| ≤ 1 / 2 := nanoseconds_near ht

/-- C89: a compressor of which nobody requests anything passes on signals below full scale as they are, in every frame
of every call. -/
theorem C89_untouched_compressor_is_transparent (i : Id) (n : Nat) (hn : 0 < n) (mf mc sr : Nat)
    (changes : Nat → List (Id × ParameterRequest)) (hno : ∀ j, ∀ x ∈ changes j, x.1 ≠ i)
    (ks : List (Call ℝ FxNode ParameterRequest)) (k : Call ℝ FxNode ParameterRequest) (o : Buf ℝ)
    (h : OneEffect N i (.compressor n) mf mc sr changes ks k o)
    (hx : ∀ c < n, ∀ F < framesIn (ks ++ [k]), |sessionInput true mc (ks ++ [k]) c F| < 1)
    (c f : Nat) (hc : c < k.output.channelCount) (hf : f < k.output.frameCount) :
    o.sample? c f = some (if c < mc ∧ c < n then sessionInput true mc (ks ++ [k]) c (framesIn ks + f) else 0) := by
  obtain ⟨es, e1, e2⟩ := h.stream trivial
  have hv : ∀ name, ∀ F < framesIn (ks ++ [k]), (FxKind.compressor n).track sr es i name F =
      (FxKind.compressor n).default name := fun name F hF =>
    C83_untouched _ i name mf sr changes (fun j x hx hh => hno j x hx hh.1) _ es e1 F hF
  have hl : ∀ F < framesIn (ks ++ [k]), loudness sr n ((FxKind.compressor n).track sr es i "attack")
      ((FxKind.compressor n).track sr es i "release") (sessionInput true mc (ks ++ [k])) F < 0 := by
    intro F hF
    exact loudness_lt_zero h.rate hn _ _ fun c hc j hj => hx c hc j (by omega)
  have hF : framesIn ks + f < framesIn (ks ++ [k]) := by
    rw [Gain.framesIn_append]
    exact Nat.add_lt_add_left (by simpa [framesIn] using hf) _
  rw [e2 (by
    rintro F hF ⟨_, h2⟩
    have := hl F hF
    rw [h2, hv "threshold" F hF] at this
    simp [FxKind.default] at this) c f hc hf]
  congr 1
  refine if_congr Iff.rfl ?_ rfl
  have := hl _ hF
  simp only [FxKind.effect, hv _ _ hF]
  rw [reduction, if_pos (by simpa [FxKind.default] using this)]
  simp [FxKind.default]

/-- C89: a compressor never makes a signal louder: with a ratio of at least 1, a knee that is not negative, and wet and
dry levels that are not negative, every frame is at most the sum of the levels times the frame that went in, and has its
sign; whatever else is requested and when. Except where a hard knee divides 0 by 0 (C52). -/
theorem C89_compressor_never_louder (i : Id) (n : Nat) (mf mc sr : Nat)
    (changes : Nat → List (Id × ParameterRequest)) (ks : List (Call ℝ FxNode ParameterRequest))
    (k : Call ℝ FxNode ParameterRequest) (o : Buf ℝ) (h : OneEffect N i (.compressor n) mf mc sr changes ks k o) :
    ∃ es, ChainHistory mf sr changes (ks ++ [k]) es ∧
      ((FxKind.compressor n).Sounding sr ((FxKind.compressor n).track sr es i) (sessionInput true mc (ks ++ [k]))
          (framesIn (ks ++ [k])) →
        ∀ c f, c < k.output.channelCount → f < k.output.frameCount → c < mc → c < n →
        ∀ v, v = (fun name => (FxKind.compressor n).track sr es i name (framesIn ks + f)) →
          1 ≤ v "ratio" → 0 ≤ v "knee" → 0 ≤ v "wet" → 0 ≤ v "dry" →
          ∃ g, 0 ≤ g ∧ g ≤ v "wet" + v "dry" ∧
            o.sample? c f = some (sessionInput true mc (ks ++ [k]) c (framesIn ks + f) * g)) := by
  obtain ⟨es, e1, e2⟩ := h.stream trivial
  refine ⟨es, e1, ?_⟩
  intro hs c f hc hf hmc hcn v hv h1 h2 h3 h4
  subst hv
  obtain ⟨r0, r1⟩ := reduction_range (level := loudness sr n ((FxKind.compressor n).track sr es i "attack")
      ((FxKind.compressor n).track sr es i "release") (sessionInput true mc (ks ++ [k])) (framesIn ks + f))
      (threshold := (FxKind.compressor n).track sr es i "threshold" (framesIn ks + f)) h2 h1
  refine ⟨_, ?_, ?_, by rw [e2 hs c f hc hf, if_pos ⟨hmc, hcn⟩]; rfl⟩
  · have := mul_nonneg r0 h3
    linarith
  · have := mul_le_of_le_one_left h3 r1
    linarith

/-- C89: a compressor settles. For all settings there is a number of frames such that in every session in which a signal of
steady magnitude `a`, louder than the threshold and half the knee, has gone on for that long from the start: what
comes out is as near as one likes to the level that the ratio asks for, `threshold + (level - threshold) / ratio` in dB. -/
theorem C89_compressor_settles (i : Id) (n : Nat) (hn : 0 < n) (sr : Nat) (hsr : 0 < sr)
    (attack release ratio threshold knee a : ℝ) (ha : 1 / 10 ^ 9 < a)
    (hL : threshold + knee / 2 < 20 * Real.logb 10 a) (hd : (20 * Real.logb 10 a - threshold) * (1 - 1 / ratio) < 128)
    (ε : ℝ) (hε : 0 < ε) :
    ∃ start : Nat, ∀ (N : Platform) (mf mc : Nat) (changes : Nat → List (Id × ParameterRequest))
      (ks : List (Call ℝ FxNode ParameterRequest)) (k : Call ℝ FxNode ParameterRequest) (o : Buf ℝ),
      OneEffect N i (.compressor n) mf mc sr changes ks k o →
      (∀ c < n, ∀ F < framesIn (ks ++ [k]), |sessionInput true mc (ks ++ [k]) c F| = a) →
      ∃ es, ChainHistory mf sr changes (ks ++ [k]) es ∧
        ((FxKind.compressor n).Sounding sr ((FxKind.compressor n).track sr es i) (sessionInput true mc (ks ++ [k]))
            (framesIn (ks ++ [k])) →
          (∀ F < framesIn (ks ++ [k]), ∀ name value, (name, value) ∈ [("attack", attack), ("release", release),
            ("ratio", ratio), ("threshold", threshold), ("knee", knee), ("wet", 1), ("dry", 0)] →
            (FxKind.compressor n).track sr es i name F = value) →
          ∀ c f, c < k.output.channelCount → f < k.output.frameCount → c < mc → c < n → start ≤ framesIn ks + f →
            ∃ y, o.sample? c f = some y ∧
              |(|y| - (10 : ℝ) ^ ((threshold + (20 * Real.logb 10 a - threshold) / ratio) / 20))| < ε) := by
  have ha0 : 0 < a := lt_trans (by positivity) ha
  have hda : decibels a = 20 * Real.logb 10 a := by unfold decibels; rw [if_neg (by linarith)]
  have hlim := reduction_tendsto (knee := knee) (threshold := threshold) (ratio := ratio) (L := decibels a)
    (by rw [hda]; exact hL) (by rw [hda]; linarith) (loudness_tendsto hsr attack ha)
  obtain ⟨start, hstart⟩ := (Metric.tendsto_atTop.mp (hlim.const_mul a)) ε hε
  refine ⟨start, ?_⟩
  intro N mf mc changes ks k o h hx
  obtain ⟨es, e1, e2⟩ := h.stream trivial
  refine ⟨es, e1, ?_⟩
  intro hs hv c f hc hf hmc hcn hst
  have hF : framesIn ks + f < framesIn (ks ++ [k]) := by
    rw [Gain.framesIn_append]
    exact Nat.add_lt_add_left (by simpa [framesIn] using hf) _
  refine ⟨_, by rw [e2 hs c f hc hf, if_pos ⟨hmc, hcn⟩], ?_⟩
  have h1 := hstart (framesIn ks + f) hst
  rw [Real.dist_eq] at h1
  have hg : (0 : ℝ) ≤ reduction (decibels (a - a * weight sr attack ^ (framesIn ks + f + 1))) knee threshold ratio := by
    unfold reduction
    split
    · exact zero_le_one
    · split
      · exact le_rfl
      · positivity
  have hend : a * (10 : ℝ) ^ ((threshold - decibels a) * (1 - 1 / ratio) / 20) =
      (10 : ℝ) ^ ((threshold + (20 * Real.logb 10 a - threshold) / ratio) / 20) := by
    have h10 : a = (10 : ℝ) ^ Real.logb 10 a := (Real.rpow_logb (by norm_num) (by norm_num) ha0).symm
    rw [hda]
    generalize Real.logb 10 a = l at *
    subst h10
    rw [← Real.rpow_add (by norm_num)]
    congr 1
    ring
  rw [hend] at h1
  simp only [FxKind.effect]
  rw [hv _ hF "knee" knee (by simp), hv _ hF "threshold" threshold (by simp), hv _ hF "ratio" ratio (by simp),
    hv _ hF "wet" 1 (by simp), hv _ hF "dry" 0 (by simp), mul_one, add_zero,
    loudness_steady hsr hn _ _ attack release a ha0.le _ (fun j hj => hv j hj "attack" attack (by simp))
      (fun j hj => hv j hj "release" release (by simp)) hx hF, abs_mul, abs_of_nonneg hg, hx c hcn _ hF]
  exact h1

/-- C89: a waveshaper that is all dry passes on its input, whatever its curve and its overdrive, frame by frame. -/
theorem C89_dry_waveshaper (i : Id) (n : Nat) (curve : ℝ → ℝ) (mf mc sr : Nat)
    (changes : Nat → List (Id × ParameterRequest)) (ks : List (Call ℝ FxNode ParameterRequest))
    (k : Call ℝ FxNode ParameterRequest) (o : Buf ℝ) (h : OneEffect N i (.waveshaper n curve) mf mc sr changes ks k o) :
    ∃ es, ChainHistory mf sr changes (ks ++ [k]) es ∧
      ((∀ F < framesIn (ks ++ [k]), -10 ≤ (FxKind.waveshaper n curve).track sr es i "overdrive" F) →
        ∀ c f, c < k.output.channelCount → f < k.output.frameCount → c < mc → c < n →
          (FxKind.waveshaper n curve).track sr es i "mix" (framesIn ks + f) = 0 →
          o.sample? c f = some (sessionInput true mc (ks ++ [k]) c (framesIn ks + f))) := by
  obtain ⟨es, e1, e2⟩ := h.stream trivial
  refine ⟨es, e1, ?_⟩
  intro ho c f hc hf hmc hcn hm
  rw [e2 ho c f hc hf, if_pos ⟨hmc, hcn⟩]
  simp only [FxKind.effect, shapedSample, hm]
  congr 1
  ring

/-- C89: a waveshaper whose curve stays within a limit and that is all wet never plays anything beyond the limit, however
loud its input is and however far it is driven. -/
theorem C89_waveshaper_limits (i : Id) (n : Nat) (curve : ℝ → ℝ) (limit : ℝ)
    (hl : ∀ x, -1 ≤ x → x ≤ 1 → |curve x| ≤ limit) (mf mc sr : Nat)
    (changes : Nat → List (Id × ParameterRequest)) (ks : List (Call ℝ FxNode ParameterRequest))
    (k : Call ℝ FxNode ParameterRequest) (o : Buf ℝ) (h : OneEffect N i (.waveshaper n curve) mf mc sr changes ks k o) :
    ∃ es, ChainHistory mf sr changes (ks ++ [k]) es ∧
      ((∀ F < framesIn (ks ++ [k]), 0 ≤ (FxKind.waveshaper n curve).track sr es i "overdrive" F) →
        (∀ F < framesIn (ks ++ [k]), (FxKind.waveshaper n curve).track sr es i "mix" F = 1) →
        ∀ c f, c < k.output.channelCount → f < k.output.frameCount → ∃ y, o.sample? c f = some y ∧ |y| ≤ limit) := by
  obtain ⟨es, e1, e2⟩ := h.stream trivial
  refine ⟨es, e1, ?_⟩
  intro ho hm c f hc hf
  have hF : framesIn ks + f < framesIn (ks ++ [k]) := by
    rw [Gain.framesIn_append]
    exact Nat.add_lt_add_left (by simpa [framesIn] using hf) _
  refine ⟨_, e2 (fun F hF => le_trans (by norm_num) (ho F hF)) c f hc hf, ?_⟩
  split
  · have := Waveshaper.C55_limit curve limit hl ((FxKind.waveshaper n curve).track sr es i "overdrive" (framesIn ks + f)) 1
      (sessionInput true mc (ks ++ [k]) c (framesIn ks + f)) _ (ho _ hF) ⟨zero_le_one, le_rfl⟩
      ⟨_, Waveshaper.polygonAt_on _ _ _, rfl⟩
    simp only [FxKind.effect, shapedSample, hm _ hF]
    simpa using this
  · rw [abs_zero]
    exact le_trans (abs_nonneg _) (hl 0 (by norm_num) (by norm_num))

/-- Requests before the first call. -/
def dynChanges (rs : List ParameterRequest) (j : Nat) : List (Id × ParameterRequest) :=
  if j = 0 then rs.map fun r => (1, r) else []

/-- A process call of `len` frames of the value `a` in which the node is made, connected, and its parameters set. -/
noncomputable def dynCall (d : Dsp FxNode) (rs : List ParameterRequest) (a : ℝ) (len : Nat) :
    Call ℝ FxNode ParameterRequest :=
  ⟨((chainProgram true [d]).map ApiCall.command ++ rs.map (Command.change 1)).map fun x => (x, .plain),
    .owned (List.replicate len a) 1 len 48000, .owned (List.replicate len 0) 1 len 48000, fun _ => Env.plain⟩

theorem dyn_runs (kind : FxKind) (hu : kind.Usable) (ho : kind.NotOscillator) (hio : kind.inputs ≤ 1 ∧ kind.outputs ≤ 1)
    (rs : List ParameterRequest) (hrs : ∀ r ∈ rs, r.name ∈ kind.names) (a : ℝ) (len : Nat) :
    ∃ d o, OneEffect plain 1 kind 16 1 48000 (dynChanges rs) [] (dynCall d rs a len) o := by
  obtain ⟨ds, h1, h2⟩ := C83_runs (N := plain) (by simp [plain]) (by simp [plain]) true [(1, kind)] (by simp)
    (by simpa using ⟨hu, ho⟩) 16 1 48000 (by norm_num) (by norm_num) (by simpa using hio) (by simp) (by simp)
    (dynChanges rs) (by
      intro i x hx
      rw [dynChanges] at hx
      split at hx
      · obtain ⟨r, hr, rfl⟩ := List.mem_map.mp hx
        exact ⟨kind, by simp, hrs r hr⟩
      · cases hx)
  obtain ⟨d, hd⟩ : ∃ d, ds = [d] := by
    have := (forall_of_mapM _ _ h1).length_eq
    exact List.length_eq_one_iff.mp (by simpa using this.symm)
  subst hd
  have hv : (dynCall d rs a len).Valid := by
    refine ⟨?_, ?_, trivial, le_refl _, ?_⟩
    · simp [dynCall, Buf.WF]
    · simp [dynCall, Buf.WF]
    · intro x hx
      obtain ⟨y, hy, rfl⟩ := List.mem_map.mp hx
      rw [List.mem_append, List.mem_map, List.mem_map] at hy
      rcases hy with ⟨b, _, rfl⟩ | ⟨r, _, rfl⟩
      · exact command_api b
      · trivial
  have hp : PlaysChain true [d] (dynChanges rs) [dynCall d rs a len] := by
    intro i k hk
    match i with
    | 0 =>
      simp only [List.getElem?_cons_zero, Option.some.injEq] at hk
      subst hk
      simp [ApiCall.command, dynCall, dynChanges, Function.comp_def]
    | i + 1 => simp at hk
  obtain ⟨E, hE⟩ := h2 [dynCall d rs a len] (by simpa using hv) hp
  obtain ⟨o, E1, h3, _⟩ := calls_cons hE
  refine ⟨d, o, by norm_num, by norm_num, by simp [plain], by simp [plain], by simpa using hv, d, _, E1, ?_, hp, rfl, h3⟩
  have := forall_of_mapM _ _ h1
  cases this with
  | cons a _ => exact a

theorem dyn_input (d : Dsp FxNode) (rs : List ParameterRequest) (a : ℝ) (len F : Nat) (hF : F < len) :
    sessionInput true 1 ([] ++ [dynCall d rs a len]) 0 F = a := by
  have h1 : (dynCall d rs a len).output.frameCount = len := rfl
  have h2 : (dynCall d rs a len).input.sampleOrSilence 0 F = a := by
    simp [dynCall, Buf.sampleOrSilence, Buf.sample?, hF, Buf.frameCount, Buf.channelCount]
  simp only [List.nil_append, sessionInput, followed, h1, hF, if_true]
  rw [h2]
  simp

/-- Half of full scale comes out of a compressor as it went in. -/
example (len : Nat) : ∃ d o, OneEffect plain 1 (.compressor 1) 16 1 48000 (dynChanges []) [] (dynCall d [] (1 / 2) len) o ∧
    ∀ f < len, o.sample? 0 f = some (1 / 2) := by
  obtain ⟨d, o, h⟩ := dyn_runs (.compressor 1) trivial trivial ⟨le_rfl, le_rfl⟩ [] (by simp) (1 / 2) len
  refine ⟨d, o, h, ?_⟩
  intro f hf
  have hlen : framesIn ([] ++ [dynCall d [] (1 / 2) len]) = len := by simp [framesIn, dynCall, Buf.frameCount]
  rw [C89_untouched_compressor_is_transparent 1 1 one_pos 16 1 48000 _ (by
    intro j x hx
    rw [dynChanges] at hx
    split at hx <;> cases hx) [] _ o h (by
    intro c hc F hF
    obtain rfl : c = 0 := by omega
    rw [dyn_input _ _ _ _ _ (by omega)]
    norm_num [abs_lt]) 0 f Nat.one_pos hf, if_pos ⟨Nat.one_pos, Nat.one_pos⟩]
  congr 1
  simpa [framesIn] using dyn_input d [] (1 / 2) len f hf

/-- A request to set a parameter now. -/
def setNow (name : String) (v : ℝ) : ParameterRequest := .change name ⟨v, Timestamp.zero, .immediate⟩

theorem dyn_values {kind : FxKind} {d : Dsp FxNode} {name : String} {v a : ℝ} {len : Nat}
    {es : List (ChainEvent ParameterRequest)}
    (h : ChainHistory 16 48000 (dynChanges [setNow name v]) ([] ++ [dynCall d [setNow name v] a len]) es) (name' : String)
    {F : Nat} (hF : F < len) : kind.track 48000 es 1 name' F = if name' = name then v else kind.default name' := by
  have hlen : framesIn ([] ++ [dynCall d [setNow name v] a len]) = len := by simp [framesIn, dynCall, Buf.frameCount]
  split
  · rename_i hn
    subst hn
    rw [C83_set_now kind 1 name' 16 48000 (by norm_num) (by norm_num) _ 0 v (by
      intro j
      by_cases hj : j = 0 <;> simp [hj, dynChanges, setNow, ParameterRequest.name]) _ es h F (by omega)]
    exact if_pos ⟨by simp [framesIn], by simp⟩
  · rename_i hn
    refine C83_untouched kind 1 name' 16 48000 _ ?_ _ es h F (by omega)
    intro j x hx
    rw [dynChanges] at hx
    split at hx
    · rw [List.map_singleton, List.mem_singleton] at hx
      subst hx
      rintro ⟨_, h2⟩
      exact hn h2.symm
    · cases hx

/-- 20 dB with a ratio of 3 to 1 and a threshold of 0 dB: after some frames within 0.001 of 20/3 dB. -/
example : ∃ len d o, OneEffect plain 1 (.compressor 1) 16 1 48000 (dynChanges [setNow "knee" 1]) []
      (dynCall d [setNow "knee" 1] 10 len) o ∧
    ∃ f y, o.sample? 0 f = some y ∧ |(|y| - (10 : ℝ) ^ ((20 / 3 : ℝ) / 20))| < 1 / 1000 := by
  have h10 : Real.logb 10 10 = 1 := Real.logb_self_eq_one (by norm_num)
  obtain ⟨start, hs⟩ := C89_compressor_settles 1 1 one_pos 48000 (by norm_num) 1 10 3 0 1 10 (by norm_num)
    (by rw [h10]; norm_num) (by rw [h10]; norm_num) (1 / 1000) (by norm_num)
  obtain ⟨d, o, h⟩ := dyn_runs (.compressor 1) trivial trivial ⟨le_rfl, le_rfl⟩ [setNow "knee" 1]
    (by simp [setNow, ParameterRequest.name, FxKind.names]) 10 (start + 1)
  have hlen : framesIn ([] ++ [dynCall d [setNow "knee" 1] 10 (start + 1)]) = start + 1 := by
    simp [framesIn, dynCall, Buf.frameCount]
  obtain ⟨es, e1, e2⟩ := hs plain 16 1 _ [] _ o h (by
    intro c hc F hF
    obtain rfl : c = 0 := by omega
    rw [dyn_input _ _ _ _ _ (by omega)]
    norm_num)
  obtain ⟨y, y1, y2⟩ := e2 (by
      rintro F hF ⟨h1, _⟩
      rw [dyn_values e1 "knee" (by omega)] at h1
      simp at h1) (by
      intro F hF name value hm
      rw [dyn_values e1 name (by omega)]
      simp only [List.mem_cons, Prod.mk.injEq, List.not_mem_nil, or_false] at hm
      rcases hm with ⟨rfl, rfl⟩ | ⟨rfl, rfl⟩ | ⟨rfl, rfl⟩ | ⟨rfl, rfl⟩ | ⟨rfl, rfl⟩ | ⟨rfl, rfl⟩ | ⟨rfl, rfl⟩ <;>
        simp [FxKind.default]) 0 start Nat.one_pos (Nat.lt_succ_self start) Nat.one_pos Nat.one_pos (by simp [framesIn])
  refine ⟨start + 1, d, o, h, start, y, y1, ?_⟩
  rw [h10] at y2
  norm_num at y2 ⊢
  exact y2

/-- The same compressor never makes it louder. -/
example (len : Nat) : ∃ d o, OneEffect plain 1 (.compressor 1) 16 1 48000 (dynChanges [setNow "knee" 1]) []
      (dynCall d [setNow "knee" 1] 10 len) o ∧ ∀ f < len, ∃ y, o.sample? 0 f = some y ∧ 0 ≤ y ∧ y ≤ 10 := by
  obtain ⟨d, o, h⟩ := dyn_runs (.compressor 1) trivial trivial ⟨le_rfl, le_rfl⟩ [setNow "knee" 1]
    (by simp [setNow, ParameterRequest.name, FxKind.names]) 10 len
  have hlen : framesIn ([] ++ [dynCall d [setNow "knee" 1] 10 len]) = len := by simp [framesIn, dynCall, Buf.frameCount]
  refine ⟨d, o, h, ?_⟩
  intro f hf
  obtain ⟨es, e1, e2⟩ := C89_compressor_never_louder 1 1 16 1 48000 _ [] _ o h
  have hv := fun name => dyn_values (kind := .compressor 1) e1 name (F := framesIn ([] : List (Call ℝ FxNode ParameterRequest)) + f)
    (by simpa [framesIn] using hf)
  obtain ⟨g, g0, g1, g2⟩ := e2 (by
      rintro F hF ⟨h1, _⟩
      rw [dyn_values e1 "knee" (by omega)] at h1
      simp at h1) 0 f Nat.one_pos hf Nat.one_pos Nat.one_pos _ rfl
    (by simp only [hv]; simp [FxKind.default]) (by simp only [hv]; simp) (by simp only [hv]; simp [FxKind.default])
    (by simp only [hv]; simp [FxKind.default])
  refine ⟨_, g2, ?_⟩
  simp only [hv] at g1
  rw [show framesIn ([] : List (Call ℝ FxNode ParameterRequest)) + f = f by simp [framesIn], dyn_input _ _ _ _ _ hf]
  simp [FxKind.default] at g1
  constructor <;> linarith

/-- A waveshaper that is all dry, and one with a hard limit of 1/2 for an input of 10. -/
example (len : Nat) : (∃ d o, OneEffect plain 1 (.waveshaper 1 (fun x => x ^ 3)) 16 1 48000 (dynChanges [setNow "mix" 0]) []
      (dynCall d [setNow "mix" 0] 10 len) o ∧ ∀ f < len, o.sample? 0 f = some 10) ∧
    ∃ d o, OneEffect plain 1 (.waveshaper 1 (fun x => x / 2)) 16 1 48000 (dynChanges [setNow "overdrive" 1]) []
      (dynCall d [setNow "overdrive" 1] 10 len) o ∧ ∀ f < len, ∃ y, o.sample? 0 f = some y ∧ |y| ≤ 1 / 2 := by
  constructor
  · obtain ⟨d, o, h⟩ := dyn_runs (.waveshaper 1 (fun x => x ^ 3)) trivial trivial ⟨le_rfl, le_rfl⟩ [setNow "mix" 0]
      (by simp [setNow, ParameterRequest.name, FxKind.names]) 10 len
    have hlen : framesIn ([] ++ [dynCall d [setNow "mix" 0] 10 len]) = len := by simp [framesIn, dynCall, Buf.frameCount]
    refine ⟨d, o, h, ?_⟩
    intro f hf
    obtain ⟨es, e1, e2⟩ := C89_dry_waveshaper 1 1 _ 16 1 48000 _ [] _ o h
    rw [e2 (by
      intro F hF
      rw [dyn_values e1 "overdrive" (by omega)]
      simp [FxKind.default]) 0 f Nat.one_pos hf Nat.one_pos Nat.one_pos (by
      rw [dyn_values e1 "mix" (by simpa [framesIn] using hf)]
      simp), show framesIn ([] : List (Call ℝ FxNode ParameterRequest)) + f = f by simp [framesIn], dyn_input _ _ _ _ _ hf]
  · obtain ⟨d, o, h⟩ := dyn_runs (.waveshaper 1 (fun x => x / 2)) trivial trivial ⟨le_rfl, le_rfl⟩ [setNow "overdrive" 1]
      (by simp [setNow, ParameterRequest.name, FxKind.names]) 10 len
    have hlen : framesIn ([] ++ [dynCall d [setNow "overdrive" 1] 10 len]) = len := by
      simp [framesIn, dynCall, Buf.frameCount]
    refine ⟨d, o, h, ?_⟩
    intro f hf
    obtain ⟨es, e1, e2⟩ := C89_waveshaper_limits 1 1 _ (1 / 2) (by
      intro x h1 h2
      rw [abs_le]
      constructor <;> linarith) 16 1 48000 _ [] _ o h
    exact e2 (by
      intro F hF
      rw [dyn_values e1 "overdrive" (by omega)]
      simp) (by
      intro F hF
      rw [dyn_values e1 "mix" (by omega)]
      simp [FxKind.default]) 0 f Nat.one_pos hf

end Fx
end Rawdio
