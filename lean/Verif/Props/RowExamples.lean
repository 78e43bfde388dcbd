import Verif.Lemmas.RowExamples
import Verif.Lemmas.PanSweep
import Verif.Props.OfflineExample
import Verif.Props.Automation
import Verif.Props.MixedNodes

/-!
# What programs play that connect nodes in a row (C93)
-/

namespace Rawdio
namespace RowExamples

open Processor Network Mixed

variable {N : Platform} {al : Int → Nat → Nat → Nat → Nat × Nat}

/-- C93: what is never connected to the output is not heard: a program of any nodes with any connections and requests
plays silence if it does not connect a node to the output. -/
theorem C93_silent {S P C : Type} [AddZeroClass S] (ops : NodeOps S P C) (mf mc sr : Nat) (hm : 0 < mf)
    (program : Nat → List (ApiCall P C)) (hP : Network.Program program)
    (hp : Plain (made (program 0)) (links (program 0)) (input (program 0)))
    (hout : ∀ n, .connectToOutput n ∉ program 0)
    (waiting ks : List (Call S P C)) (hv : ∀ k ∈ waiting ++ ks, k.Valid)
    (hd : Delivered program waiting ks) (E : Processor S P)
    (hE : calls ops (new sr mc mf) (waiting ++ ks) = .ok E) :
    ∀ i k E1 o E2, (waiting ++ ks)[i]? = some k →
      calls ops (new sr mc mf) ((waiting ++ ks).take i) = .ok E1 →
      E1.process ops k.env k.commands k.input k.output = .ok (o, E2) →
      ∀ c f, c < k.output.channelCount → f < k.output.frameCount → o.sample? c f = some 0 := by
  obtain ⟨es, sig, _, _, h3⟩ := C86_network ops mf mc sr hm program hP hp waiting ks hv hd E hE
  intro i k E1 o E2 hik h1 h2 c f hc hf
  have ho : output (program 0) = none := by
    rw [output, List.findSome?_eq_none_iff]
    intro a ha
    rw [List.mem_reverse] at ha
    cases a with
    | connectToOutput n => exact absurd ha (hout n)
    | _ => rfl
  rw [h3 i k E1 o E2 hik h1 h2 c f hc hf, ho, heard]
  simp

/-- C93: a program that makes nodes of any kinds, makes requests to them, connects them in a row to the output and starts
the engine. From the frame on which the engine is started, what is heard is silence, passed through the nodes one after the
other, with the requests to each. -/
theorem C93_row (hz : ∀ x, N.isZero x = true → x = 0) (ho : ∀ x, N.isOne x = true → x = 1) (mf mc sr : Nat)
    (hm : 0 < mf) (hsr : 0 < sr) (hsr' : sr < 2 ^ 32) (hlen : mf * sr ≤ 2 ^ 33) (parts : List Part) (hne : parts ≠ [])
    (hu : ∀ p ∈ parts, p.kind.Usable) (hid : (parts.map Part.id).Nodup)
    (hch : ∀ p ∈ parts, p.kind.inputs ≤ mc ∧ p.kind.outputs ≤ mc) (hl : parts.length ≤ 1022)
    (later : List (Nat × MixedRequest)) (hr : ∀ x ∈ allRequests parts later, x.2.Proper)
    (calls0 : List (ApiCall MixedNode MixedRequest)) (hcalls : program sr mf parts later true = .ok calls0)
    (waiting ks : List (Call ℝ MixedNode MixedRequest)) (hv : ∀ k ∈ waiting ++ ks, k.Valid)
    (hdel : Delivered (fun i => if i = 0 then calls0 else []) waiting ks) (E : Processor ℝ MixedNode)
    (hE : calls (MixedNode.ops N al) (new sr mc mf) (waiting ++ ks) = .ok E) :
    ∃ es y, ChainHistory mf sr (fun i => if i = 0 then allRequests parts later else []) ks es ∧
      Through sr (framesIn ks) es parts (fun _ _ => 0) y ∧
      ∀ i k E1 o E2, (waiting ++ ks)[i]? = some k →
        calls (MixedNode.ops N al) (new sr mc mf) ((waiting ++ ks).take i) = .ok E1 →
        E1.process (MixedNode.ops N al) k.env k.commands k.input k.output = .ok (o, E2) →
        ∀ c f F, c < k.output.channelCount → f < k.output.frameCount →
          F = framesIn (ks.take (i - waiting.length)) + f →
          o.sample? c f = some (if i < waiting.length ∨ mc ≤ c then 0 else y c F) := by
  obtain ⟨nodes, n1, n2⟩ := nodes_ok (sr := sr) hm parts hu
  rw [program_eq n1] at hcalls
  injection hcalls with hcalls
  subst hcalls
  have hP : Network.Program (fun i => if i = 0 then rowCalls nodes parts later true else []) :=
    ProgramSteps.program ProgramSteps.build_builds (ProgramSteps.allowed_left _ _ (row_allowed mc n2 hid hch hl))
      ProgramSteps.build_starts
  have hreq : ∀ i, requests (if i = 0 then rowCalls nodes parts later true else []) =
      if i = 0 then allRequests parts later else [] := by
    intro i
    split
    · exact row_requests n2
    · rfl
  obtain ⟨es, sig, h1, h2, h3⟩ := C87_mixed (al := al) hz ho mf mc sr hm hsr hsr' hlen _ hP (by
      simp only [if_true]; exact row_plain n2 hid) (parts.map fun p => (p.id, p.kind)) (by
      intro q hq
      obtain ⟨p, hp, rfl⟩ := List.mem_map.mp hq
      exact hu p hp) (by simp only [if_true]; rw [row_made n2]; exact row_kinds n2) (by
      intro i x hx
      rw [hreq] at hx
      split at hx
      · exact hr x hx
      · cases hx) waiting ks hv hdel E hE
  simp only [hreq] at h1
  simp only [if_true, row_links n2, row_output n2] at h2 h3
  obtain ⟨p, ps, rfl⟩ := List.exists_cons_of_ne_nil hne
  refine ⟨es, sig ((p :: ps).getLast (by simp)).id, h1, ?_, ?_⟩
  · have hin : input (rowCalls nodes (p :: ps) later true) = none := ProgramSteps.build_input
    rw [hin] at h2
    refine through_of ps p [] _ hid (by simp) ?_ fun q hq => h2 (q.id, q.kind) (List.mem_map.mpr ⟨q, hq, rfl⟩)
    · funext c F
      rw [List.nil_append, Network.arriving, filter_first hid]
      simp
  · intro i k E1 o E2 hik e1 e2 c f F hc hf hF
    rw [h3 i k E1 o E2 hik e1 e2 c f hc hf, ← hF, heard]
    have hlast : ((p :: ps).map Part.id).getLast? = some ((p :: ps).getLast (by simp)).id := by
      rw [List.getLast?_map, List.getLast?_eq_getLast_of_ne_nil (by simp)]
      rfl
    rw [hlast]
    by_cases hi : i < waiting.length
    · simp [hi]
    · by_cases hcm : c < mc
      · have : ¬ mc ≤ c := by omega
        simp [hi, hcm, this]
      · have : mc ≤ c := by omega
        simp [hi, hcm, this]

/-- C93: all process calls of such a session succeed, if the requests are for what the nodes have, and no oscillator comes
to a whole number of cycles at a frame; also if the row is not connected to the output. -/
theorem C93_runs (hz : ∀ x, N.isZero x = true → x = 0) (ho : ∀ x, N.isOne x = true → x = 1) (mf mc sr : Nat)
    (hm : 0 < mf) (hsr : 0 < sr) (hsr' : sr < 2 ^ 32) (hlen : mf * sr ≤ 2 ^ 33) (parts : List Part)
    (hu : ∀ p ∈ parts, p.kind.Usable ∧ p.kind.Renders sr) (hid : (parts.map Part.id).Nodup)
    (hch : ∀ p ∈ parts, p.kind.inputs ≤ mc ∧ p.kind.outputs ≤ mc) (hl : parts.length ≤ 1022)
    (later : List (Nat × MixedRequest)) (hr : ∀ p ∈ parts, ∀ r, (p.id, r) ∈ allRequests parts later → p.kind.Allows r)
    (toOutput : Bool) :
    ∃ calls0, program sr mf parts later toOutput = .ok calls0 ∧
      ∀ waiting ks : List (Call ℝ MixedNode MixedRequest), (∀ k ∈ waiting ++ ks, k.Valid) →
        Delivered (fun i => if i = 0 then calls0 else []) waiting ks →
        ∃ E, calls (MixedNode.ops N al) (new sr mc mf) (waiting ++ ks) = .ok E := by
  obtain ⟨nodes, n1, n2⟩ := nodes_ok (sr := sr) hm parts fun p hp => (hu p hp).1
  refine ⟨_, program_eq n1, ?_⟩
  intro waiting ks hv hdel
  have hall := row_allowed (later := later) (b := toOutput) mc n2 hid hch hl
  refine C87_runs hz ho mf mc sr hm hsr hsr' hlen _
    (ProgramSteps.program ProgramSteps.build_builds (ProgramSteps.allowed_left _ _ hall) ProgramSteps.build_starts)
    (parts.map fun p => (p.id, p.kind)) ?_ ?_ ?_ ?_ waiting ks hv hdel
  · intro q hq
    obtain ⟨p, hp, rfl⟩ := List.mem_map.mp hq
    exact hu p hp
  · simp only [if_true]
    rw [← rowCalls, row_made n2]
    exact row_kinds n2
  · intro i x hx k hk
    split at hx
    · rw [← rowCalls, row_requests n2] at hx
      obtain ⟨p, hp, he⟩ := List.mem_map.mp hk
      injection he with h1 h2
      subst h2
      exact hr p hp x.2 (by rw [h1]; exact hx)
    · cases hx
  · intro n
    rw [ProgramSteps.at_first]
    split
    · trivial
    · exact hall

/-- C93: a linear automation of a parameter of a node among others is followed (`Fx.C90_linear`). -/
theorem C93_linear {P : Type} (k : FxKind) (i : Id) (name : String) (mf sr : Nat) (hsr : 0 < sr) (hle : sr ≤ 2 ^ 28)
    (changes : Nat → List (Id × MixedRequest)) (n : Nat) (ps : List AutomationPoint)
    (hown : ∀ j, (changes j).filterMap (fun x => if x.1 = i then x.2.parameter?.filter (fun r => r.name = name) else none) =
      if j = n then ps.map (Automation.request .linear name) else [])
    (ks : List (Call ℝ P MixedRequest)) (es : List (ChainEvent MixedRequest))
    (h : ChainHistory mf sr changes ks es) (T : Int) (hT : T = Timestamp.fromSamples (framesIn (ks.take n)) sr)
    (hlive : ∀ p ∈ ps, p.start = p.finish ∨ T < p.finish) (M R L : ℝ) (hM : 9 ≤ M) (hL : 0 ≤ L)
    (hsp : Automation.Spaced (2 ^ 32 / sr) M (ps.map (Automation.arriving T)))
    (hlen : ∀ p ∈ ps, (p.finish : ℝ) - p.start ≤ L * (2 ^ 32 / sr))
    (hR : ∀ x ∈ k.default name :: ps.map AutomationPoint.value, ∀ y ∈ k.default name :: ps.map AutomationPoint.value,
      |x - y| ≤ R) (F : Nat) (hF : F < framesIn ks) (hn : framesIn (ks.take n) ≤ F) :
    ∃ t : Int, T ≤ t ∧ |(t : ℝ) - F * (2 ^ 32 / sr)| ≤ 3 / 2 ∧
      |k.track sr (es.filterMap (ChainEvent.seen i MixedRequest.parameter?)) i name F -
        Automation.curve Automation.linear (k.default name) (ps.map (Automation.arriving T)) t| ≤
        8 * R / (M - 3) + L / 2 ^ 51 := by
  have hs := history_seen (P' := FxNode) i MixedRequest.parameter? h
  have htk : framesIn ((ks.map (Call.bare : Call ℝ P MixedRequest → Call ℝ FxNode ParameterRequest)).take n) =
      framesIn (ks.take n) := by rw [← List.map_take, framesIn_bare]
  obtain ⟨t, t1, t2, t3, -⟩ := (Fx.C90_linear k i name mf sr hsr hle _ n ps (by
      intro j
      rw [seenBy, List.filter_filterMap]
      have : ((changes j).filterMap fun x => if x.1 = i then x.2.parameter?.filter (fun r => r.name = name) else none).map
          (fun r => (i, r)) = if j = n then ps.map (fun p => (i, Automation.request .linear name p)) else [] := by
        rw [hown j]
        split
        · rw [List.map_map]; rfl
        · rfl
      rw [← this, List.map_filterMap]
      congr 1
      funext x
      by_cases hx : x.1 = i
      · rw [if_pos hx, if_pos hx]
        cases x.2.parameter? with
        | none => rfl
        | some r =>
          by_cases hr : r.name = name <;> simp [Option.filter, hr]
      · rw [if_neg hx, if_neg hx]
        rfl) _ _ hs T (by rw [htk]; exact hT) hlive M R L hM hL hsp hlen hR F (by rw [framesIn_bare]; exact hF)).2
      (by rw [htk]; exact hn)
  exact ⟨t, t1, t2, t3⟩

/-- C93 fails for the example that compresses a file: `examples/src/bin/compressor.rs` connects the sampler to the
compressor but the compressor to nothing, so it plays silence, whatever the file is. -/
theorem C93_compressor_silent_violated (mf mc sr : Nat) (hm : 0 < mf) (hmc : 2 ≤ mc)
    (sample : Grid ℝ) (hs : sample.channels ≤ mc) (fade : Fade ℝ)
    (hfade : 0 < fade.values.length) (s c : Id) (hsc : s ≠ c) (n : Nat)
    (calls0 : List (ApiCall MixedNode MixedRequest)) (hcalls : compressorProgram sr mf sample fade s c n = .ok calls0)
    (waiting ks : List (Call ℝ MixedNode MixedRequest)) (hv : ∀ k ∈ waiting ++ ks, k.Valid)
    (hdel : Delivered (fun i => if i = 0 then calls0 else []) waiting ks) (E : Processor ℝ MixedNode)
    (hE : calls (MixedNode.ops N al) (new sr mc mf) (waiting ++ ks) = .ok E) :
    ∀ i k E1 o E2, (waiting ++ ks)[i]? = some k →
      calls (MixedNode.ops N al) (new sr mc mf) ((waiting ++ ks).take i) = .ok E1 →
      E1.process (MixedNode.ops N al) k.env k.commands k.input k.output = .ok (o, E2) →
      ∀ c f, c < k.output.channelCount → f < k.output.frameCount → o.sample? c f = some 0 := by
  have hid : ((compressorParts sample fade s c).map Part.id).Nodup := by simp [compressorParts, hsc]
  obtain ⟨nodes, n1, n2⟩ := nodes_ok (sr := sr) hm (compressorParts sample fade s c) (by
    intro p hp
    simp only [compressorParts, List.mem_cons, List.not_mem_nil, or_false] at hp
    rcases hp with rfl | rfl
    · exact hfade
    · trivial)
  rw [compressorProgram, program_eq n1] at hcalls
  injection hcalls with hcalls
  subst hcalls
  have hall := row_allowed (later := compressorLater sr sample n) (b := false) mc n2 hid (by
    intro p hp
    simp only [compressorParts, List.mem_cons, List.not_mem_nil, or_false] at hp
    rcases hp with rfl | rfl
    · exact ⟨Nat.zero_le _, hs⟩
    · exact ⟨hmc, hmc⟩) (by simp [compressorParts])
  refine C93_silent (MixedNode.ops N al) mf mc sr hm _ (ProgramSteps.program ProgramSteps.build_builds
    (ProgramSteps.allowed_left _ _ hall) ProgramSteps.build_starts) ?_ ?_ waiting ks hv hdel E hE
  · simp only [if_true]
    exact row_plain n2 hid
  · intro x hx
    simp only [if_true] at hx
    rcases ProgramSteps.mem_build hx with ⟨a, _, h⟩ | ⟨a, _, r, _, h⟩ | ⟨y, _, h⟩ | ⟨p, _, h⟩ | ⟨y, hy, _⟩ | h
    · cases h
    · cases h
    · cases h
    · cases h
    · cases hy
    · cases h

/-- C93: the example that pans a tone, with any frequency and level: every frame is that of a sine, from left to right in
four seconds. The error is at most that of five frames of the pan, and one part in a million. -/
theorem C93_pan (hz : ∀ x, N.isZero x = true → x = 0) (ho : ∀ x, N.isOne x = true → x = 1) (mf mc sr : Nat)
    (hm : 0 < mf) (hmc : 2 ≤ mc) (hsr : 4 ≤ sr) (hle : sr ≤ 2 ^ 28) (hlen : mf * sr ≤ 2 ^ 33) (frequency level : ℝ)
    (hf : 0 < frequency) (a b : Id) (hab : a ≠ b)
    (calls0 : List (ApiCall MixedNode MixedRequest)) (hcalls : panProgram sr mf frequency level a b = .ok calls0)
    (waiting ks : List (Call ℝ MixedNode MixedRequest)) (hv : ∀ k ∈ waiting ++ ks, k.Valid)
    (hdel : Delivered (fun i => if i = 0 then calls0 else []) waiting ks) (E : Processor ℝ MixedNode)
    (hE : calls (MixedNode.ops N al) (new sr mc mf) (waiting ++ ks) = .ok E) :
    ∀ i k E1 o E2, (waiting ++ ks)[i]? = some k →
      calls (MixedNode.ops N al) (new sr mc mf) ((waiting ++ ks).take i) = .ok E1 →
      E1.process (MixedNode.ops N al) k.env k.commands k.input k.output = .ok (o, E2) →
      ∀ c f F, c < k.output.channelCount → f < k.output.frameCount →
        F = framesIn (ks.take (i - waiting.length)) + f →
        ((i < waiting.length ∨ 2 ≤ c) → o.sample? c f = some 0) ∧
        (waiting.length ≤ i → c < 2 → ∃ y, o.sample? c f = some y ∧
          |y - Real.sin (2 * Real.pi * (frequency * (F + 1) / sr)) * level * PanSweep.factor c (panPosition (F / sr))| ≤
            |level| * (5 / sr + 1 / 10 ^ 6)) := by
  have hsr0 : 0 < sr := by omega
  have hreqs : allRequests (panParts frequency level a b) [] = [(a, set "gain" level Timestamp.zero),
      (b, set "pan" (-1) Timestamp.zero), (b, ramp "pan" 1 Timestamp.zero (Timestamp.fromSeconds 4))] := rfl
  obtain ⟨es, y, e1, e2, e3⟩ := C93_row hz ho mf mc sr hm hsr0 (by omega) hlen (panParts frequency level a b)
    (by simp [panParts]) (by
      intro p hp
      simp only [panParts, List.mem_cons, List.not_mem_nil, or_false] at hp
      rcases hp with rfl | rfl
      · refine ⟨by norm_num, by rw [Oscillator.makeSine_length]; decide, ?_⟩
        rw [List.getD_eq_getElem?_getD, Oscillator.makeSine_get _ _ _ (by decide)]
        simp
      · exact le_refl 2) (by simp [panParts, hab]) (by
      intro p hp
      simp only [panParts, List.mem_cons, List.not_mem_nil, or_false] at hp
      rcases hp with rfl | rfl
      · exact ⟨Nat.zero_le _, hmc⟩
      · exact ⟨hmc, hmc⟩) (by simp [panParts]) [] (by
      rw [hreqs]
      simp [set, ramp, MixedRequest.Proper]) calls0 hcalls waiting ks hv hdel E hE
  rw [hreqs] at e1
  obtain ⟨z, z1, z2⟩ := e2
  intro i k E1 o E2 hik q1 q2 c f F hc hf' hF
  have hy := e3 i k E1 o E2 hik q1 q2 c f F hc hf' hF
  by_cases hi : i < waiting.length
  · rw [if_pos (.inl hi)] at hy
    exact ⟨fun _ => hy, fun h => absurd h (by omega)⟩
  have hks : ks ≠ [] := by
    rintro rfl
    rw [List.append_nil, List.getElem?_eq_none (by omega)] at hik
    cases hik
  have hFl : F < framesIn ks := by
    rw [List.getElem?_append_right (by omega)] at hik
    have hlt : i - waiting.length < ks.length := by
      by_contra hn; rw [List.getElem?_eq_none (by omega)] at hik; cases hik
    have e : ks = ks.take (i - waiting.length) ++ k :: ks.drop (i - waiting.length + 1) := by
      conv_lhs => rw [← List.take_append_drop (i - waiting.length) ks]
      rw [List.drop_eq_getElem_cons hlt]
      rw [List.getElem?_eq_getElem hlt] at hik
      injection hik with hik
      rw [hik]
    rw [hF]
    conv_rhs => rw [e]
    simp only [framesIn, List.map_append, List.sum_append, List.map_cons, List.sum_cons]
    omega
  have y1 := z2 trivial c F hFl
  simp only [NodeKind.Makes, FxKind.heard] at y1
  by_cases hc2 : 2 ≤ c
  · rw [if_neg (by change ¬ c < 2; omega)] at y1
    refine ⟨fun _ => ?_, fun _ h => absurd h (by omega)⟩
    rw [hy, y1]
    simp
  refine ⟨fun h => by rcases h with h | h <;> omega, fun _ _ => ?_⟩
  rw [if_neg (by omega)] at hy
  refine ⟨_, hy, ?_⟩
  rw [if_pos (show c < (FxKind.pan 2).outputs by change c < 2; omega)] at y1
  rw [y1]
  simp only [FxKind.effect]
  rw [if_pos (show c < NodeKind.outputs _ by change c < 2; omega)]
  have hfreq : ∀ F < framesIn ks, (FxKind.oscillator frequency 2 (Oscillator.makeSine Oscillator.tableSize 1)).track sr
      (es.filterMap (ChainEvent.seen a MixedRequest.parameter?)) a "frequency" F = frequency := by
    intro F hF
    rw [C87_untouched _ a "frequency" mf sr _ ?_ ks es e1 F hF]
    · rfl
    · intro j r hr
      split at hr
      · simp [set, ramp, hab] at hr
        subst hr
        simp [ParameterRequest.name]
      · cases hr
  have hgain : (FxKind.oscillator frequency 2 (Oscillator.makeSine Oscillator.tableSize 1)).track sr
      (es.filterMap (ChainEvent.seen a MixedRequest.parameter?)) a "gain" F = level := by
    rw [C87_set_now _ a "gain" mf sr hsr0 (hle.trans (by norm_num)) _ 0 level ?_ ks es e1 F hFl, if_pos]
    · exact ⟨by simp [framesIn], List.length_pos_iff.mpr hks⟩
    · intro j
      by_cases hj : j = 0
      · simp [hj, set, ramp, hab.symm, MixedRequest.parameter?, ParameterRequest.name, Option.filter]
      · simp [hj]
  have hosc : z c F = Oscillator.tableAt (Oscillator.makeSine 8192 1) (frequency * (F + 1) / sr) * level := by
    have := z1 (fun F hF => by dsimp only; rw [hfreq F hF]; exact hf) c F hFl
    dsimp only at this
    rw [this, FxKind.heard, if_pos (by change c < 2; omega)]
    simp only [FxKind.effect]
    have hc : Oscillator.cycles ((FxKind.oscillator frequency 2 (Oscillator.makeSine Oscillator.tableSize 1)).track
        sr (es.filterMap (ChainEvent.seen a MixedRequest.parameter?)) a "frequency") sr (F + 1) =
        frequency * (F + 1) / sr := by
      rw [Oscillator.cycles, Finset.sum_congr rfl fun t ht => by
        rw [hfreq t (by have := Finset.mem_range.mp ht; omega)], Finset.sum_const, Finset.card_range, nsmul_eq_mul]
      push_cast
      ring
    rw [hc, hgain]
    rfl
  rw [hosc]
  have hsr' : (4 : ℝ) ≤ sr := by exact_mod_cast hsr
  have hle' : (sr : ℝ) ≤ 2 ^ 28 := by exact_mod_cast hle
  have hpos : (0 : ℝ) < sr := by linarith
  have hT : (0 : Int) = Timestamp.fromSamples (framesIn (ks.take 0)) sr := by
    simp [framesIn, Timestamp.fromSamples, Timestamp.fromSeconds, Timestamp.roundHalfEven]
  have e4 : (4 : ℝ) * sr * (2 ^ 32 / sr) = 4 * 2 ^ 32 := by field_simp
  obtain ⟨t, t1, t2, t3⟩ := C93_linear (.pan 2) b "pan" mf sr hsr0 hle _ 0 [⟨-1, 0, 0⟩, ⟨1, 0, 4 * 2 ^ 32⟩] (by
      intro j
      by_cases hj : j = 0
      · have : Timestamp.fromSeconds 4 = 4 * 2 ^ 32 := by
          simp [Timestamp.fromSeconds, Timestamp.roundHalfEven, Timestamp.one]
          norm_num
        simp [hj, set, ramp, hab, MixedRequest.parameter?, ParameterRequest.name, Option.filter, Automation.request, this,
          Timestamp.zero]
      · simp [hj]) ks es e1 0 hT (by simp) (4 * sr) 2 (4 * sr) (by linarith) (by linarith)
      (by
        refine ⟨?_, ?_⟩
        · rw [e4]
          simp [Automation.arriving]
          norm_num
        · simp [Automation.arriving])
      (by
        rw [e4]
        simp
        norm_num)
      (by simp [FxKind.default]; norm_num) F hFl (by simp [framesIn])
  have hd0 : (FxKind.pan 2).default "pan" = 0 := rfl
  have hcur : Automation.curve Automation.linear 0
      (([⟨-1, 0, 0⟩, ⟨1, 0, 4 * 2 ^ 32⟩] : List AutomationPoint).map (Automation.arriving 0)) t =
      panPosition ((t : ℝ) / 2 ^ 32) := by
    have h0' : (0 : ℝ) ≤ t := by exact_mod_cast t1
    simp only [Automation.arriving, List.map_cons, List.map_nil, Automation.curve, Automation.linear, panPosition]
    norm_num
    have e2 : ((t : ℝ) / 4294967296 < 4) ↔ ((t : ℝ) < 17179869184) := by rw [div_lt_iff₀ (by norm_num)]; norm_num
    rw [if_congr e2 rfl rfl]
    split
    · omega
    · split
      · ring
      · rfl
  rw [hd0, hcur] at t3
  set x := (FxKind.pan 2).track sr (es.filterMap (ChainEvent.seen b MixedRequest.parameter?)) b "pan" F with hx
  have hnear : ∀ x y : ℝ, |panPosition x - panPosition y| ≤ |x - y| := by
    intro x y
    have := le_abs_self (x - y)
    have := neg_abs_le (x - y)
    unfold panPosition
    split_ifs <;> rw [abs_le] <;> constructor <;> linarith
  have hpan : |x - panPosition (F / sr)| ≤ 5 / sr + 6 / 10 ^ 7 := by
    have a1 := hnear ((t : ℝ) / 2 ^ 32) (F / sr)
    have a2 : |(t : ℝ) / 2 ^ 32 - F / sr| ≤ 3 / 2 / 2 ^ 32 := by
      rw [show (t : ℝ) / 2 ^ 32 - F / sr = ((t : ℝ) - F * (2 ^ 32 / sr)) / 2 ^ 32 by field_simp, abs_div,
        abs_of_pos (show (0 : ℝ) < 2 ^ 32 by norm_num)]
      exact div_le_div_of_nonneg_right t2 (by norm_num)
    have a3 : 8 * 2 / (4 * (sr : ℝ) - 3) ≤ 5 / sr := by
      rw [div_le_div_iff₀ (by linarith) hpos]
      linarith
    have a4 : 4 * (sr : ℝ) / 2 ^ 51 ≤ 5 / 10 ^ 7 := by
      rw [div_le_iff₀ (by norm_num)]
      linarith
    calc |x - panPosition (F / sr)| ≤ |x - panPosition ((t : ℝ) / 2 ^ 32)| +
          |panPosition ((t : ℝ) / 2 ^ 32) - panPosition (F / sr)| := abs_sub_le _ _ _
      _ ≤ _ := by norm_num at *; linarith
  have hs := OfflineExample.sine_near (frequency * (F + 1) / sr)
  set s := Oscillator.tableAt (Oscillator.makeSine 8192 1) (frequency * (F + 1) / sr)
  set u := Real.sin (2 * Real.pi * (frequency * (F + 1) / sr)) with hu
  have hu1 : |u| ≤ 1 := Real.abs_sin_le_one _
  have hs1 : |s| ≤ 1 + 1 / 10 ^ 7 := by
    have := abs_sub_abs_le_abs_sub s u
    linarith
  have hfac := OfflineExample.factor_near c x (panPosition (F / sr))
  have hfac1 : |PanSweep.factor c (panPosition (F / sr))| ≤ 1 := by
    apply OfflineExample.factor_le
    have : (0 : ℝ) ≤ F / sr := by positivity
    unfold panPosition
    split <;> rw [abs_le] <;> constructor <;> linarith
  change |s * level * PanSweep.factor c x - u * level * PanSweep.factor c (panPosition (F / sr))| ≤ _
  rw [show s * level * PanSweep.factor c x - u * level * PanSweep.factor c (panPosition (F / sr)) =
    level * (s * (PanSweep.factor c x - PanSweep.factor c (panPosition (F / sr))) +
      (s - u) * PanSweep.factor c (panPosition (F / sr))) by ring, abs_mul]
  refine mul_le_mul_of_nonneg_left ?_ (abs_nonneg _)
  refine (abs_add_le _ _).trans ?_
  rw [abs_mul, abs_mul]
  have b1 : |s| * |PanSweep.factor c x - PanSweep.factor c (panPosition (F / sr))| ≤
      (1 + 1 / 10 ^ 7) * (5 / sr + 6 / 10 ^ 7) :=
    mul_le_mul hs1 (hfac.trans hpan) (abs_nonneg _) (by positivity)
  have b2 : |s - u| * |PanSweep.factor c (panPosition (F / sr))| ≤ (1 / 10 ^ 7) * 1 :=
    mul_le_mul (by linarith) hfac1 (abs_nonneg _) (by positivity)
  have b3 : (5 : ℝ) / sr ≤ 5 / 4 := by
    rw [div_le_div_iff₀ hpos (by norm_num)]
    linarith
  nlinarith

theorem drivePosition_nonneg {t : ℝ} (h : 0 ≤ t) : 0 ≤ drivePosition t := by
  unfold drivePosition
  split_ifs <;> linarith

theorem drivePosition_near (x y : ℝ) : |drivePosition x - drivePosition y| ≤ |x - y| := by
  have := le_abs_self (x - y)
  have := neg_abs_le (x - y)
  unfold drivePosition
  split_ifs <;> rw [abs_le] <;> constructor <;> linarith

/-- The overdrive of the example that shapes a tone. -/
theorem overdrive_near {P : Type} (k : FxKind) (hk : k.default "overdrive" = 0) (b : Id) (mf sr : Nat) (hsr : 3 ≤ sr)
    (hle : sr ≤ 2 ^ 28) (changes : Nat → List (Id × MixedRequest)) (ks : List (Call ℝ P MixedRequest))
    (es : List (ChainEvent MixedRequest)) (h : ChainHistory mf sr changes ks es)
    (hown : ∀ j, (changes j).filterMap (fun x => if x.1 = b then x.2.parameter?.filter (fun r => r.name = "overdrive") else none) =
      if j = 0 then [ParameterRequest.change "overdrive" ⟨0, Timestamp.zero, .immediate⟩,
        .change "overdrive" ⟨1, Timestamp.fromSeconds 5, .linear Timestamp.zero⟩,
        .change "overdrive" ⟨0, Timestamp.fromSeconds 10, .linear (Timestamp.fromSeconds 5)⟩] else [])
    (F : ℕ) (hF : F < framesIn ks) :
    |k.track sr (es.filterMap (ChainEvent.seen b MixedRequest.parameter?)) b "overdrive" F - drivePosition (F / sr)| ≤
      3 / sr + 1 / 10 ^ 6 := by
  have hsr' : (3 : ℝ) ≤ sr := by exact_mod_cast hsr
  have hle' : (sr : ℝ) ≤ 2 ^ 28 := by exact_mod_cast hle
  have hpos : (0 : ℝ) < sr := by linarith
  have hT : (0 : Int) = Timestamp.fromSamples (framesIn (ks.take 0)) sr := by
    simp [framesIn, Timestamp.fromSamples, Timestamp.fromSeconds, Timestamp.roundHalfEven]
  have e5 : (5 : ℝ) * sr * (2 ^ 32 / sr) = 5 * 2 ^ 32 := by field_simp
  have f5 : Timestamp.fromSeconds 5 = 5 * 2 ^ 32 := by
    simp [Timestamp.fromSeconds, Timestamp.roundHalfEven, Timestamp.one]
    norm_num
  have f10 : Timestamp.fromSeconds 10 = 10 * 2 ^ 32 := by
    simp [Timestamp.fromSeconds, Timestamp.roundHalfEven, Timestamp.one]
    norm_num
  obtain ⟨t, t1, t2, t3⟩ := C93_linear k b "overdrive" mf sr (by omega) hle _ 0
    [⟨0, 0, 0⟩, ⟨1, 0, 5 * 2 ^ 32⟩, ⟨0, 5 * 2 ^ 32, 10 * 2 ^ 32⟩] (by
      intro j
      rw [hown j, f5, f10]
      rfl) ks es h 0 hT (by simp) (5 * sr) 1 (5 * sr) (by linarith) (by linarith)
      (by
        refine ⟨?_, ?_⟩
        · rw [e5]
          simp [Automation.arriving]
          norm_num
        · simp [Automation.arriving])
      (by
        rw [e5]
        simp
        norm_num)
      (by simp [hk]) F hF (by simp [framesIn])
  have hcur : Automation.curve Automation.linear 0
      (([⟨0, 0, 0⟩, ⟨1, 0, 5 * 2 ^ 32⟩, ⟨0, 5 * 2 ^ 32, 10 * 2 ^ 32⟩] : List AutomationPoint).map (Automation.arriving 0)) t =
      drivePosition ((t : ℝ) / 2 ^ 32) := by
    have h0' : (0 : ℝ) ≤ t := by exact_mod_cast t1
    simp only [Automation.arriving, List.map_cons, List.map_nil, Automation.curve, Automation.linear, drivePosition]
    norm_num
    have e1 : ((t : ℝ) / 4294967296 < 5) ↔ ((t : ℝ) < 21474836480) := by rw [div_lt_iff₀ (by norm_num)]; norm_num
    have e2 : ((t : ℝ) / 4294967296 < 10) ↔ ((t : ℝ) < 42949672960) := by rw [div_lt_iff₀ (by norm_num)]; norm_num
    rw [if_congr e1 rfl rfl, if_congr e2 rfl rfl]
    split
    · omega
    · split
      · ring
      · split
        · ring
        · rfl
  rw [hk, hcur] at t3
  have a1 := drivePosition_near ((t : ℝ) / 2 ^ 32) (F / sr)
  have a2 : |(t : ℝ) / 2 ^ 32 - F / sr| ≤ 3 / 2 / 2 ^ 32 := by
    rw [show (t : ℝ) / 2 ^ 32 - F / sr = ((t : ℝ) - F * (2 ^ 32 / sr)) / 2 ^ 32 by field_simp, abs_div,
      abs_of_pos (show (0 : ℝ) < 2 ^ 32 by norm_num)]
    exact div_le_div_of_nonneg_right t2 (by norm_num)
  have a3 : 8 * 1 / (5 * (sr : ℝ) - 3) ≤ 3 / sr := by
    rw [div_le_div_iff₀ (by linarith) hpos]
    linarith
  have a4 : 5 * (sr : ℝ) / 2 ^ 51 ≤ 6 / 10 ^ 7 := by
    rw [div_le_iff₀ (by norm_num)]
    linarith
  refine (abs_sub_le _ (drivePosition ((t : ℝ) / 2 ^ 32)) _).trans ?_
  norm_num at *
  linarith

/-- C93: the example that shapes a tone, with any frequency, harmonics, curve and mix: every frame is the shaped sum of the
harmonics, driven up in five seconds and down in five seconds. The overdrive is within three frames, and the sum within
the error of the straight lines (C76). -/
theorem C93_waveshaper (hz : ∀ x, N.isZero x = true → x = 0) (ho : ∀ x, N.isOne x = true → x = 1) (mf mc sr : Nat)
    (hm : 0 < mf) (hmc : 2 ≤ mc) (hsr : 3 ≤ sr) (hle : sr ≤ 2 ^ 28) (hlen : mf * sr ≤ 2 ^ 33) (frequency : ℝ)
    (harmonics : List Level) (curve : ℝ → ℝ) (mix : ℝ) (hf : 0 < frequency) (a b : Id) (hab : a ≠ b)
    (calls0 : List (ApiCall MixedNode MixedRequest))
    (hcalls : waveshaperProgram sr mf frequency harmonics curve mix a b = .ok calls0)
    (waiting ks : List (Call ℝ MixedNode MixedRequest)) (hv : ∀ k ∈ waiting ++ ks, k.Valid)
    (hdel : Delivered (fun i => if i = 0 then calls0 else []) waiting ks) (E : Processor ℝ MixedNode)
    (hE : calls (MixedNode.ops N al) (new sr mc mf) (waiting ++ ks) = .ok E) :
    ∀ i k E1 o E2, (waiting ++ ks)[i]? = some k →
      calls (MixedNode.ops N al) (new sr mc mf) ((waiting ++ ks).take i) = .ok E1 →
      E1.process (MixedNode.ops N al) k.env k.commands k.input k.output = .ok (o, E2) →
      ∀ c f F, c < k.output.channelCount → f < k.output.frameCount →
        F = framesIn (ks.take (i - waiting.length)) + f →
        ((i < waiting.length ∨ 2 ≤ c) → o.sample? c f = some 0) ∧
        (waiting.length ≤ i → c < 2 → ∃ d x, o.sample? c f = some (shapedSample curve d mix x) ∧
          |d - drivePosition (F / sr)| ≤ 3 / sr + 1 / 10 ^ 6 ∧
          |x - Oscillator.harmonicSum harmonics (frequency * (F + 1) / sr)| ≤
            ∑ n ∈ Finset.range harmonics.length,
              |(harmonics.getD n ⟨0⟩).linear| * ((2 * Real.pi * (n + 1) / 8192) ^ 2 / 8)) := by
  have hsr0 : 0 < sr := by omega
  have hreqs : allRequests (waveshaperParts frequency harmonics curve mix a b) [] = [(b, set "mix" mix Timestamp.zero),
      (b, set "overdrive" 0 Timestamp.zero), (b, ramp "overdrive" 1 Timestamp.zero (Timestamp.fromSeconds 5)),
      (b, ramp "overdrive" 0 (Timestamp.fromSeconds 5) (Timestamp.fromSeconds 10))] := rfl
  obtain ⟨w1, w2⟩ := Oscillator.addHarmonics_get harmonics 0 (List.replicate Oscillator.tableSize 0) (by simp)
  have w3 : ∀ i < Oscillator.tableSize, (Oscillator.addHarmonics 0 harmonics
      (List.replicate Oscillator.tableSize 0)).getD i 0 = Oscillator.hsum 0 harmonics ((i : ℝ) / Oscillator.tableSize) := by
    intro i hi
    rw [w2 i hi, List.getD_eq_getElem?_getD, List.getElem?_replicate, if_pos hi, Option.getD_some, zero_add]
  rw [waveshaperProgram] at hcalls
  rw [waveshaperParts] at hreqs hcalls
  generalize Oscillator.addHarmonics 0 harmonics (List.replicate Oscillator.tableSize 0) = table at w1 w3 hreqs hcalls
  have hts : 0 < Oscillator.tableSize := by decide
  obtain ⟨es, y, e1, e2, e3⟩ := C93_row hz ho mf mc sr hm hsr0 (by omega) hlen _
    (by simp) (by
      intro p hp
      simp only [List.mem_cons, List.not_mem_nil, or_false] at hp
      rcases hp with rfl | rfl
      · exact ⟨by norm_num, by rw [w1]; exact hts, by rw [w3 0 hts]; simp [Oscillator.hsum_zero]⟩
      · trivial) (by simp [hab]) (by
      intro p hp
      simp only [List.mem_cons, List.not_mem_nil, or_false] at hp
      rcases hp with rfl | rfl
      · exact ⟨Nat.zero_le _, hmc⟩
      · exact ⟨hmc, hmc⟩) (by simp) [] (by
      rw [hreqs]
      simp [set, ramp, MixedRequest.Proper]) calls0 hcalls waiting ks hv hdel E hE
  rw [hreqs] at e1
  obtain ⟨z, z1, z2⟩ := e2
  intro i k E1 o E2 hik q1 q2 c f F hc hf' hF
  have hy := e3 i k E1 o E2 hik q1 q2 c f F hc hf' hF
  by_cases hi : i < waiting.length
  · rw [if_pos (.inl hi)] at hy
    exact ⟨fun _ => hy, fun h => absurd h (by omega)⟩
  have hks : ks ≠ [] := by
    rintro rfl
    rw [List.append_nil, List.getElem?_eq_none (by omega)] at hik
    cases hik
  have hFl : F < framesIn ks := by
    rw [List.getElem?_append_right (by omega)] at hik
    have hlt : i - waiting.length < ks.length := by
      by_contra hn; rw [List.getElem?_eq_none (by omega)] at hik; cases hik
    have e : ks = ks.take (i - waiting.length) ++ k :: ks.drop (i - waiting.length + 1) := by
      conv_lhs => rw [← List.take_append_drop (i - waiting.length) ks]
      rw [List.drop_eq_getElem_cons hlt]
      rw [List.getElem?_eq_getElem hlt] at hik
      injection hik with hik
      rw [hik]
    rw [hF]
    conv_rhs => rw [e]
    simp only [framesIn, List.map_append, List.sum_append, List.map_cons, List.sum_cons]
    omega
  have hdrive : ∀ F < framesIn ks, |(FxKind.waveshaper 2 curve).track sr
      (es.filterMap (ChainEvent.seen b MixedRequest.parameter?)) b "overdrive" F - drivePosition (F / sr)| ≤
      3 / sr + 1 / 10 ^ 6 := by
    intro F hF
    refine overdrive_near _ rfl b mf sr hsr hle _ ks es e1 ?_ F hF
    intro j
    by_cases hj : j = 0
    · simp [hj, set, ramp, MixedRequest.parameter?, ParameterRequest.name, Option.filter]
    · simp [hj]
  have hsr' : (3 : ℝ) ≤ sr := by exact_mod_cast hsr
  have y1 := z2 (by
    intro F hF
    have h1 := hdrive F hF
    have h2 := drivePosition_nonneg (t := F / sr) (by positivity)
    have h3 : (3 : ℝ) / sr ≤ 1 := by rw [div_le_one (by linarith)]; linarith
    rw [abs_le] at h1
    dsimp only
    linarith [h1.1]) c F hFl
  simp only [NodeKind.Makes, FxKind.heard] at y1
  by_cases hc2 : 2 ≤ c
  · rw [if_neg (by change ¬ c < 2; omega)] at y1
    refine ⟨fun _ => ?_, fun _ h => absurd h (by omega)⟩
    rw [hy, y1]
    simp
  refine ⟨fun h => by rcases h with h | h <;> omega, fun _ _ => ?_⟩
  rw [if_neg (by omega)] at hy
  rw [if_pos (show c < (FxKind.waveshaper 2 curve).outputs by change c < 2; omega)] at y1
  simp only [FxKind.effect] at y1
  rw [if_pos (show c < NodeKind.outputs _ by change c < 2; omega)] at y1
  have hmix : (FxKind.waveshaper 2 curve).track sr
      (es.filterMap (ChainEvent.seen b MixedRequest.parameter?)) b "mix" F = mix := by
    rw [C87_set_now _ b "mix" mf sr hsr0 (hle.trans (by norm_num)) _ 0 mix ?_ ks es e1 F hFl, if_pos]
    · exact ⟨by simp [framesIn], List.length_pos_iff.mpr hks⟩
    · intro j
      by_cases hj : j = 0
      · simp [hj, set, ramp, MixedRequest.parameter?, ParameterRequest.name, Option.filter]
      · simp [hj]
  rw [hmix] at y1
  rw [y1] at hy
  refine ⟨_, _, hy, hdrive F hFl, ?_⟩
  have hno : ∀ (name : String) j r, (a, MixedRequest.parameter r) ∈
      (if j = 0 then [(b, set "mix" mix Timestamp.zero), (b, set "overdrive" 0 Timestamp.zero),
        (b, ramp "overdrive" 1 Timestamp.zero (Timestamp.fromSeconds 5)),
        (b, ramp "overdrive" 0 (Timestamp.fromSeconds 5) (Timestamp.fromSeconds 10))] else []) → r.name ≠ name := by
    intro name j r hr
    split at hr
    · simp [hab] at hr
    · cases hr
  have hfreq : ∀ F < framesIn ks, (FxKind.oscillator frequency 2 table).track sr
      (es.filterMap (ChainEvent.seen a MixedRequest.parameter?)) a "frequency" F = frequency := by
    intro F hF
    rw [C87_untouched _ a "frequency" mf sr _ (hno "frequency") ks es e1 F hF]
    rfl
  have hgain : (FxKind.oscillator frequency 2 table).track sr
      (es.filterMap (ChainEvent.seen a MixedRequest.parameter?)) a "gain" F = 1 := by
    rw [C87_untouched _ a "gain" mf sr _ (hno "gain") ks es e1 F hFl]
    rfl
  have hosc : z c F = Oscillator.tableAt table (frequency * (F + 1) / sr) := by
    have := z1 (fun F hF => by dsimp only; rw [hfreq F hF]; exact hf) c F hFl
    dsimp only at this
    rw [this, FxKind.heard, if_pos (by change c < 2; omega)]
    simp only [FxKind.effect]
    have hc : Oscillator.cycles ((FxKind.oscillator frequency 2 table).track
        sr (es.filterMap (ChainEvent.seen a MixedRequest.parameter?)) a "frequency") sr (F + 1) =
        frequency * (F + 1) / sr := by
      rw [Oscillator.cycles, Finset.sum_congr rfl fun t ht => by
        rw [hfreq t (by have := Finset.mem_range.mp ht; omega)], Finset.sum_const, Finset.card_range, nsmul_eq_mul]
      push_cast
      ring
    rw [hc, hgain, mul_one]
  rw [hosc]
  have h4 := Oscillator.tableAt_near table harmonics (by rw [w1]; exact hts) (by rw [w1]; exact w3) (frequency * (F + 1) / sr)
  rw [Oscillator.hsum_eq, Oscillator.herr_eq, w1] at h4
  simp only [Nat.zero_add] at h4
  exact h4

/-! ### Examples -/

theorem sessionValid (as : List (ApiCall MixedNode MixedRequest)) :
    ∀ k ∈ [mixedCall []] ++ [mixedCall as, mixedCall []], k.Valid := by
  intro k hk
  simp only [List.cons_append, List.nil_append, List.mem_cons, List.not_mem_nil, or_false] at hk
  rcases hk with rfl | rfl | rfl <;> exact mixedCall_valid _

/-- A tone that is panned in a session of three calls. -/
example : ∃ calls0 E, panProgram 44100 16 (440 * √2) (1 / 2) 1 2 = .ok calls0 ∧
    (∀ k ∈ [mixedCall []] ++ [mixedCall calls0, mixedCall []], k.Valid) ∧
    Delivered (fun i => if i = 0 then calls0 else []) [mixedCall []] [mixedCall calls0, mixedCall []] ∧
    calls (MixedNode.ops Fx.plain fun _ _ _ _ => (0, 0)) (new 44100 2 16)
      ([mixedCall []] ++ [mixedCall calls0, mixedCall []]) = .ok E := by
  obtain ⟨calls0, h1, h2⟩ := C93_runs (N := Fx.plain) (al := fun _ _ _ _ => (0, 0)) (by simp [Fx.plain])
    (by simp [Fx.plain]) 16 2 44100 (by norm_num) (by norm_num) (by norm_num) (by norm_num)
    (panParts (440 * √2) (1 / 2) 1 2) (by
      intro p hp
      simp only [panParts, List.mem_cons, List.not_mem_nil, or_false] at hp
      rcases hp with rfl | rfl
      · refine ⟨⟨by norm_num, by rw [Oscillator.makeSine_length]; decide, ?_⟩, by positivity, fun n hn => by
          have := OfflineExample.not_whole (a := 440) (by norm_num) n hn 44100 (by norm_num)
          push_cast at this ⊢
          exact this⟩
        rw [List.getD_eq_getElem?_getD, Oscillator.makeSine_get _ _ _ (by decide)]
        simp
      · exact ⟨le_refl 2, trivial⟩) (by simp [panParts]) (by
      intro p hp
      simp only [panParts, List.mem_cons, List.not_mem_nil, or_false] at hp
      rcases hp with rfl | rfl
      · exact ⟨Nat.zero_le _, le_refl 2⟩
      · exact ⟨le_refl 2, le_refl 2⟩) (by simp [panParts]) [] (by
      intro p hp r hr
      simp only [panParts, List.mem_cons, List.not_mem_nil, or_false] at hp
      rcases hp with rfl | rfl
      · simp [allRequests, asked, panParts] at hr
        subst hr
        simp [NodeKind.Allows, set, ParameterRequest.name]
      · simp [allRequests, asked, panParts] at hr
        rcases hr with rfl | rfl <;> simp [NodeKind.Allows, FxKind.names, set, ramp, ParameterRequest.name]) true
  obtain ⟨E, hE⟩ := h2 _ _ (sessionValid _) (mixedCall_delivered calls0)
  exact ⟨calls0, E, h1, sessionValid _, mixedCall_delivered calls0, hE⟩

/-- A tone that is cut off at one half in a session of three calls. -/
example : ∃ calls0 E, waveshaperProgram 44100 16 (440 * √2) [⟨1 / 2⟩, ⟨1 / 4⟩] (fun x => min x (1 / 2)) (3 / 4) 1 2 = .ok calls0 ∧
    (∀ k ∈ [mixedCall []] ++ [mixedCall calls0, mixedCall []], k.Valid) ∧
    Delivered (fun i => if i = 0 then calls0 else []) [mixedCall []] [mixedCall calls0, mixedCall []] ∧
    calls (MixedNode.ops Fx.plain fun _ _ _ _ => (0, 0)) (new 44100 2 16)
      ([mixedCall []] ++ [mixedCall calls0, mixedCall []]) = .ok E := by
  obtain ⟨calls0, h1, h2⟩ := C93_runs (N := Fx.plain) (al := fun _ _ _ _ => (0, 0)) (by simp [Fx.plain])
    (by simp [Fx.plain]) 16 2 44100 (by norm_num) (by norm_num) (by norm_num) (by norm_num)
    (waveshaperParts (440 * √2) [⟨1 / 2⟩, ⟨1 / 4⟩] (fun x => min x (1 / 2)) (3 / 4) 1 2) (by
      intro p hp
      simp only [waveshaperParts, List.mem_cons, List.not_mem_nil, or_false] at hp
      rcases hp with rfl | rfl
      · obtain ⟨w1, w2⟩ := Oscillator.addHarmonics_get [⟨1 / 2⟩, ⟨1 / 4⟩] 0 (List.replicate Oscillator.tableSize 0) (by simp)
        refine ⟨⟨by norm_num, by rw [w1]; decide, ?_⟩, by positivity, fun n hn => by
          have := OfflineExample.not_whole (a := 440) (by norm_num) n hn 44100 (by norm_num)
          push_cast at this ⊢
          exact this⟩
        rw [w2 0 (by decide), List.getD_eq_getElem?_getD, List.getElem?_replicate, if_pos (by decide), Option.getD_some]
        simp [Oscillator.hsum_zero]
      · exact ⟨trivial, trivial⟩) (by simp [waveshaperParts]) (by
      intro p hp
      simp only [waveshaperParts, List.mem_cons, List.not_mem_nil, or_false] at hp
      rcases hp with rfl | rfl
      · exact ⟨Nat.zero_le _, le_refl 2⟩
      · exact ⟨le_refl 2, le_refl 2⟩) (by simp [waveshaperParts]) [] (by
      intro p hp r hr
      simp only [waveshaperParts, List.mem_cons, List.not_mem_nil, or_false] at hp
      rcases hp with rfl | rfl
      · simp [allRequests, asked, waveshaperParts] at hr
      · simp [allRequests, asked, waveshaperParts] at hr
        rcases hr with rfl | rfl | rfl | rfl <;>
          simp [NodeKind.Allows, FxKind.names, set, ramp, ParameterRequest.name]) true
  obtain ⟨E, hE⟩ := h2 _ _ (sessionValid _) (mixedCall_delivered calls0)
  exact ⟨calls0, E, h1, sessionValid _, mixedCall_delivered calls0, hE⟩

/-- A file of two channels and four frames in which all samples are 1, compressed in a session of three calls. -/
example : ∃ calls0 E, compressorProgram 44100 16 ⟨2, 4, fun _ _ => 1⟩ ⟨[0, 1]⟩ 1 2 0 = .ok calls0 ∧
    (∀ k ∈ [mixedCall []] ++ [mixedCall calls0, mixedCall []], k.Valid) ∧
    Delivered (fun i => if i = 0 then calls0 else []) [mixedCall []] [mixedCall calls0, mixedCall []] ∧
    calls (MixedNode.ops Fx.plain fun _ _ _ _ => (0, 0)) (new 44100 2 16)
      ([mixedCall []] ++ [mixedCall calls0, mixedCall []]) = .ok E := by
  obtain ⟨calls0, h1, h2⟩ := C93_runs (N := Fx.plain) (al := fun _ _ _ _ => (0, 0)) (by simp [Fx.plain])
    (by simp [Fx.plain]) 16 2 44100 (by norm_num) (by norm_num) (by norm_num) (by norm_num)
    (compressorParts ⟨2, 4, fun _ _ => 1⟩ ⟨[0, 1]⟩ 1 2) (by
      intro p hp
      simp only [compressorParts, List.mem_cons, List.not_mem_nil, or_false] at hp
      rcases hp with rfl | rfl
      · exact ⟨by simp [NodeKind.Usable], trivial⟩
      · exact ⟨trivial, trivial⟩) (by simp [compressorParts]) (by
      intro p hp
      simp only [compressorParts, List.mem_cons, List.not_mem_nil, or_false] at hp
      rcases hp with rfl | rfl
      · exact ⟨Nat.zero_le _, le_refl 2⟩
      · exact ⟨le_refl 2, le_refl 2⟩) (by simp [compressorParts])
    (compressorLater 44100 ⟨2, 4, fun _ _ => 1⟩ 0) (by
      intro p hp r hr
      simp only [compressorParts, List.mem_cons, List.not_mem_nil, or_false] at hp
      rcases hp with rfl | rfl
      · simp [allRequests, asked, compressorParts, compressorLater] at hr
        rcases hr with rfl | rfl
        · simp [NodeKind.Allows, SamplerEvent.startNow, Sampler.ProperLoop]
        · simp [NodeKind.Allows, SamplerEvent.enableLoop, Sampler.ProperLoop, Timestamp.zero, Timestamp.fromSamples,
            Timestamp.fromSeconds, Timestamp.roundHalfEven, Timestamp.one]
          norm_num
      · simp [allRequests, asked, compressorParts, compressorLater] at hr
        rcases hr with rfl | rfl | rfl | rfl | rfl | rfl | rfl <;>
          simp [NodeKind.Allows, FxKind.names, set, ParameterRequest.name]) false
  obtain ⟨E, hE⟩ := h2 _ _ (sessionValid _) (mixedCall_delivered calls0)
  exact ⟨calls0, E, h1, sessionValid _, mixedCall_delivered calls0, hE⟩

/-- A gain that is faded from 1 to 0 in a second, among other requests. -/
example : ∀ F : ℕ, F < 8 → ∃ t : Int, 0 ≤ t ∧ |(t : ℝ) - F * (2 ^ 32 / 44100)| ≤ 3 / 2 ∧
    |(FxKind.gain 1).track 44100 (List.filterMap (ChainEvent.seen 1 MixedRequest.parameter?)
    ([] ++ [((2 : Id), MixedRequest.adsr ⟨0, 0, .noteOn⟩), (1, ramp "gain" 0 0 (2 ^ 32))].map
      (fun x => ChainEvent.change x.1 x.2) ++
      [(Timestamp.incrementedBySamples 0 0 44100, 8)].map fun b => ChainEvent.block b.1 b.2)) 1 "gain" F -
      Automation.curve Automation.linear 1 [⟨0, 0, 2 ^ 32⟩] t| ≤ 8 * 1 / (44100 - 3) + 44100 / 2 ^ 51 := by
  intro F hF
  have h := C93_linear (.gain 1) 1 "gain" 16 44100 (by norm_num) (by norm_num)
    (fun j => if j = 0 then [((2 : Id), MixedRequest.adsr ⟨0, 0, .noteOn⟩), (1, ramp "gain" 0 0 (2 ^ 32))] else []) 0
    [⟨0, 0, 2 ^ 32⟩] (by
      intro j
      by_cases hj : j = 0
      · simp [hj, ramp, MixedRequest.parameter?, ParameterRequest.name, Option.filter, Automation.request]
      · simp [hj]) _ _ (mixedSession _) 0 (by
        simp [framesIn, Timestamp.fromSamples, Timestamp.fromSeconds, Timestamp.roundHalfEven]) (by simp) 44100 1 44100
    (by norm_num) (by norm_num) (by simp [Automation.Spaced, Automation.arriving]; norm_num)
    (by simp; norm_num) (by simp [FxKind.default]) F (by simpa [framesIn, mixedCall, Buf.frameCount] using hF) (by simp [framesIn])
  simpa [FxKind.default, Automation.arriving] using h

end RowExamples
end Rawdio
