import Verif.Lemmas.Files
import Verif.Lemmas.EngineView
import Verif.Lemmas.Gain
import Verif.Props.Buffers
import Verif.Spec.Files

/-! Helper lemmas about reading, writing and rendering files. -/

namespace Rawdio
namespace Wav

open Buf DspGraph Processor

variable {S P C : Type}

theorem getD_lt {α : Type} (l : List α) {i : Nat} (d : α) (h : i < l.length) : l.getD i d = l[i] := by
  rw [List.getD_eq_getElem?_getD, List.getElem?_eq_getElem h]
  rfl

theorem interleaved_length {α : Type} (ch fr : Nat) (x : Nat → Nat → α) : (interleaved ch fr x).length = fr * ch := by
  simp [interleaved, List.length_flatMap]

theorem interleaved_add {α : Type} (ch m n : Nat) (x : Nat → Nat → α) :
    interleaved ch (m + n) x = interleaved ch m x ++ interleaved ch n (fun c f => x c (m + f)) := by
  simp [interleaved, List.range_add, List.flatMap_append, List.flatMap_map]

theorem interleaved_congr {α : Type} {ch fr : Nat} {x y : Nat → Nat → α} (h : ∀ c f, c < ch → f < fr → x c f = y c f) :
    interleaved ch fr x = interleaved ch fr y := by
  unfold interleaved
  apply List.flatMap_congr
  intro f hf
  apply List.map_congr_left
  intro c hc
  exact h c f (List.mem_range.mp hc) (List.mem_range.mp hf)

theorem interleaved_get {α : Type} (ch : Nat) (x : Nat → Nat → α) (c : Nat) (hc : c < ch) : ∀ fr f, f < fr →
    (interleaved ch fr x)[f * ch + c]? = some (x c f) := by
  intro fr
  induction fr with
  | zero => intro f hf; omega
  | succ n ih =>
    intro f hf
    rw [interleaved_add]
    rcases Nat.lt_or_ge f n with h | h
    · rw [List.getElem?_append_left]
      · exact ih f h
      · rw [interleaved_length]
        calc f * ch + c < f * ch + ch := by omega
          _ = (f + 1) * ch := by ring
          _ ≤ n * ch := Nat.mul_le_mul_right _ h
    · obtain rfl : f = n := by omega
      rw [List.getElem?_append_right (by rw [interleaved_length]; omega), interleaved_length, Nat.add_sub_cancel_left]
      simp [interleaved, hc]

theorem interleaved_self {α : Type} (ch : Nat) (x : List α) (d : α) (fr : Nat) (hl : x.length = fr * ch) :
    interleaved ch fr (fun c f => x.getD (f * ch + c) d) = x := by
  rcases Nat.eq_zero_or_pos ch with rfl | hch
  · have : x = [] := List.length_eq_zero_iff.mp (by omega)
    subst this
    exact List.length_eq_zero_iff.mp (by rw [interleaved_length]; simp)
  apply List.ext_getElem?
  intro i
  rcases Nat.lt_or_ge i (fr * ch) with h | h
  · have hf : i / ch < fr := Nat.div_lt_of_lt_mul (by rw [Nat.mul_comm]; exact h)
    have e : i / ch * ch + i % ch = i := by rw [Nat.mul_comm]; exact Nat.div_add_mod i ch
    have := interleaved_get ch (fun c f => x.getD (f * ch + c) d) (i % ch) (Nat.mod_lt _ hch) fr (i / ch) hf
    rw [e] at this
    rw [this, List.getElem?_eq_getElem (by omega), getD_lt _ _ (by omega)]
  · rw [List.getElem?_eq_none (by rw [interleaved_length]; omega), List.getElem?_eq_none (by omega)]

theorem writeSample_ok (file : List Int) (v : F32) : writeSample file (encode v) = .ok (file ++ [encode v]) := by
  have := abs_le.mp (encode_le v)
  rw [writeSample, if_pos (by omega)]

/-- Writing a buffer never fails, and writes its samples in the order of a file. -/
theorem writeFrames_ok (value : S → F32) (b : Buf S) (hw : b.WF) (x : Nat → Nat → S)
    (hx : ∀ c f, c < b.channelCount → f < b.frameCount → b.sample? c f = some (x c f)) (file : List Int) :
    writeFrames value b file =
      .ok (file ++ interleaved b.channelCount b.frameCount (fun c f => encode (value (x c f)))) := by
  have inner : ∀ f, f < b.frameCount → ∀ n, n ≤ b.channelCount → ∀ file : List Int,
      (List.range n).foldlM (fun file channel => do
        let sample ← b.getSample ⟨channel, f⟩
        writeSample file (encode (value sample))) file =
      (.ok (file ++ (List.range n).map fun c => encode (value (x c f))) : Res (List Int)) := by
    intro f hf n
    induction n with
    | zero => intro _ file; simp [pure, Except.pure]
    | succ n ih =>
      intro hn file
      rw [List.range_succ, List.foldlM_append, ih (by omega)]
      obtain ⟨v, h1, h2⟩ := getSample_eq b hw n f (by omega) hf
      rw [hx n f (by omega) hf] at h1
      injection h1 with h1
      simp [bind, Except.bind, h2, ← h1, writeSample_ok, pure, Except.pure]
  have outer : ∀ n, n ≤ b.frameCount → (List.range n).foldlM (fun file frame =>
      (List.range b.channelCount).foldlM (fun file channel => do
        let sample ← b.getSample ⟨channel, frame⟩
        writeSample file (encode (value sample))) file) file =
      (.ok (file ++ interleaved b.channelCount n (fun c f => encode (value (x c f)))) : Res (List Int)) := by
    intro n
    induction n with
    | zero => intro _; simp [pure, Except.pure, interleaved]
    | succ n ih =>
      intro hn
      rw [List.range_succ, List.foldlM_append, ok_bind (ih (by omega)), interleaved_add, List.foldlM_cons,
        ok_bind (inner n (by omega) _ (le_refl _) _), List.foldlM_nil]
      simp [interleaved, pure, Except.pure]
  exact outer _ (le_refl _)

/-- Reading a file never fails, and puts every sample in its place. -/
theorem readBuffer_ok [Zero S] (sample : ℚ → S) (ch sr bits fr : Nat) (hch : 0 < ch) (file : List (Option Int))
    (hl : file.length = fr * ch) : ∃ b : Buf S, readBuffer sample ch sr bits file = .ok b ∧ b.WF ∧ b.Writable ∧
      b.channelCount = ch ∧ b.frameCount = fr ∧ b.sampleRate = sr ∧ ∀ c f, c < ch → f < fr →
        b.sample? c f = some ((file.getD (f * ch + c) none).elim 0 fun n => sample (decode bits n)) := by
  have hdiv : file.length / ch = fr := by rw [hl]; exact Nat.mul_div_cancel _ hch
  have key : ∀ n, n ≤ file.length → ∃ b : Buf S, (file.zipIdx.take n).foldlM (fun (buffer : Buf S) x =>
      match x.1 with
      | none => Except.ok buffer
      | some n => buffer.setSample ⟨x.2 % ch, x.2 / ch⟩ (sample (decode bits n))) (Buf.new fr ch sr) = .ok b ∧
      (Buf.new fr ch sr : Buf S).SameShape b ∧ b.WF ∧ b.Writable ∧ ∀ c f, c < ch → f < fr →
        b.sample? c f = some (if f * ch + c < n then
          (file.getD (f * ch + c) none).elim 0 fun n => sample (decode bits n) else 0) := by
    intro n
    induction n with
    | zero =>
      intro _
      refine ⟨Buf.new fr ch sr, by simp [pure, Except.pure], SameShape.refl _, new_wf _ _ _, trivial, ?_⟩
      intro c f hc hf
      rw [new_sample?, if_pos ⟨hc, hf⟩, if_neg (by omega)]
    | succ n ih =>
      intro hn
      obtain ⟨b, b1, b2, b3, b4, b5⟩ := ih (by omega)
      have hz : file.zipIdx[n]? = some (file[n], n) := by
        rw [List.getElem?_zipIdx, List.getElem?_eq_getElem (by omega)]
        simp
      rw [List.take_succ, hz, List.foldlM_append, b1]
      have hcc : b.channelCount = ch := b2.channelCount.symm
      have hfc : b.frameCount = fr := b2.frameCount.symm
      have hne : n / ch * ch + n % ch = n := by rw [Nat.mul_comm]; exact Nat.div_add_mod n ch
      have hmod : n % ch < ch := Nat.mod_lt _ hch
      have hquot : n / ch < fr := Nat.div_lt_of_lt_mul (by rw [Nat.mul_comm]; omega)
      have uniq : ∀ c f, c < ch → f * ch + c = n → c = n % ch ∧ f = n / ch := by
        intro c f hc h
        rw [← h]
        constructor
        · rw [Nat.add_comm, Nat.add_mul_mod_self_right, Nat.mod_eq_of_lt hc]
        · rw [Nat.add_comm, Nat.add_mul_div_right _ _ hch, Nat.div_eq_of_lt hc, Nat.zero_add]
      have hget : file.getD n none = file[n] := getD_lt _ _ (by omega)
      simp only [bind, Except.bind, Option.toList_some, List.foldlM_cons, List.foldlM_nil]
      rcases hv : file[n] with _ | v
      · refine ⟨b, by simp [pure, Except.pure], b2, b3, b4, ?_⟩
        intro c f hc hf
        rw [b5 c f hc hf]
        congr 1
        rcases Nat.lt_trichotomy (f * ch + c) n with h | h | h
        · rw [if_pos h, if_pos (by omega)]
        · rw [if_neg (by omega), if_pos (by omega), h, hget, hv]; rfl
        · rw [if_neg (by omega), if_neg (by omega)]
      · obtain ⟨b', c1, c2, c3, c4, c5, c6⟩ := C29_write_one_sample b b3 b4 (n % ch) (n / ch) (by omega) (by omega)
          (sample (decode bits v))
        refine ⟨b', by simp only [c1]; rfl, b2.trans c2, c3, c4, ?_⟩
        intro c f hc hf
        obtain ⟨w, w1, w2⟩ := getSample_eq b' c3 c f (by rw [← c2.channelCount, hcc]; exact hc)
          (by rw [← c2.frameCount, hfc]; exact hf)
        rw [w1]
        by_cases h : f * ch + c = n
        · obtain ⟨rfl, rfl⟩ := uniq c f hc h
          rw [c5] at w2
          injection w2 with w2
          rw [hne, if_pos (by omega), hget, hv, ← w2]
          rfl
        · rw [c6 c f (by omega) (by omega) (by
            intro he
            injection he with e1 e2
            apply h
            rw [e1, e2, hne])] at w2
          obtain ⟨u, u1, u2⟩ := getSample_eq b b3 c f (by omega) (by omega)
          rw [u2] at w2
          injection w2 with w2
          rw [← w2, ← u1, b5 c f hc hf]
          congr 1
          by_cases h' : f * ch + c < n
          · rw [if_pos h', if_pos (by omega)]
          · rw [if_neg h', if_neg (by omega)]
  obtain ⟨b, b1, b2, b3, b4, b5⟩ := key file.length (le_refl _)
  rw [List.take_of_length_le (by simp)] at b1
  refine ⟨b, by rw [readBuffer, hdiv]; exact b1, b3, b4, b2.channelCount.symm, b2.frameCount.symm, b2.sampleRate.symm, ?_⟩
  intro c f hc hf
  rw [b5 c f hc hf, if_pos]
  rw [hl]
  calc f * ch + c < f * ch + ch := by omega
    _ = (f + 1) * ch := by ring
    _ ≤ fr * ch := Nat.mul_le_mul_right _ hf

/-! ## Rendering -/

/-- A process call on a slice returns the slice, usable. -/
theorem process_slice [AddZeroClass S] {ops : NodeOps S P C} {mf mc sr : Nat} (hm : 0 < mf) {E E' : Processor S P}
    (hE : EInv ops mf mc sr E) {k : Call S P C} (hk : k.Valid) {p : Buf S} {r : Range} (hp : k.output = .slice p r true)
    {o : Buf S} (h : E.process ops k.env k.commands k.input k.output = .ok (o, E')) :
    ∃ p', o = .slice p' r true ∧ p.SameShape p' ∧ p'.WF ∧ p'.Writable ∧ o.WF := by
  obtain ⟨E0, o0, p1, p2, p3, p4, p5, p6, p7⟩ := process_parts hk.outWF hk.writable h
  have hE0 := processCommands_inv hm _ _ _ hE hk.api p1
  have en : o0.frameCount ≤ k.input.frameCount := by rw [← p3.frameCount]; exact hk.enough
  have hz : ∀ c f, c < o0.channelCount → f < o0.frameCount → o0.sample? c f = some 0 := by
    rw [← p3.frameCount, ← p3.channelCount]; exact p6
  have key : k.output.SameShape o ∧ o.WF ∧ o.Writable := by
    cases hs : E0.started with
    | false =>
      obtain ⟨rfl, rfl⟩ := render_stopped hs p7
      exact ⟨p3, p4, p5⟩
    | true =>
      obtain ⟨G', h1, rfl⟩ := render_started hs p7
      obtain ⟨q, hq⟩ := reachable_inv hm hE0.reach
      rw [hE0.frames, hE0.rate] at h1
      obtain ⟨_, _, _, _, c5, c6, c7, _⟩ := renderedLoop hm hk.inWF _ _ _ _ _ _ hE0.reach hq p4 p5 en
        (Nat.zero_le _) (fun c f hc _ hf => hz c f hc hf) h1
      exact ⟨p3.trans c5, c6, c7⟩
  obtain ⟨h1, h2, h3⟩ := key
  rw [hp] at h1
  cases o with
  | owned d c f s => cases h1
  | slice p' r' m' =>
    obtain ⟨a, rfl, rfl⟩ := h1
    exact ⟨p', rfl, a, h2.1, h3.2, h2⟩

/-- What holds after `n` calls of the loop. -/
structure Rendering [Zero S] [Add S] (ops : NodeOps S P C) (value : S → F32) (mf mc sr total : Nat)
    (commands : Nat → List (Command P C × Luck)) (n : Nat) (s : Processor S P × Buf S × List Int)
    (ks : List (Call S P C)) (x : Nat → Nat → S) : Prop where
  count : ks.length = n
  run : calls ops (new sr mc mf) ks = .ok s.1
  wf : s.2.1.WF
  writable : s.2.1.Writable
  channels : s.2.1.channelCount = 2
  frames : s.2.1.frameCount = total
  rate : s.2.1.sampleRate = sr
  calls : RenderCalls sr total commands ks
  heard : ∀ i k E1 o E2, ks[i]? = some k → Processor.calls ops (new sr mc mf) (ks.take i) = .ok E1 →
    E1.process ops k.env k.commands k.input k.output = .ok (o, E2) →
    ∀ c f, c < 2 → f < k.output.frameCount → o.sample? c f = some (x c (i * 1024 + f))
  file : s.2.2 = interleaved 2 (min total (n * 1024)) (fun c f => encode (value (x c f)))

theorem renderCalls_valid [Zero S] {sr total : Nat} {commands : Nat → List (Command P C × Luck)}
    (hapi : ∀ i, ∀ c ∈ commands i, c.1.Api) {ks : List (Call S P C)} (h : RenderCalls sr total commands ks) :
    ∀ k ∈ ks, k.Valid := by
  intro k hk
  obtain ⟨i, hi⟩ := List.mem_iff_getElem?.mp hk
  obtain ⟨h1, h2, h3, h4, h5, h6⟩ := h.shape i k hi
  refine ⟨by rw [h6]; exact new_wf _ _ _, h4, h5, ?_, ?_⟩
  · rw [h3, h6]
    exact le_refl _
  · rw [h1]
    exact hapi i

theorem renderCalls_snoc [Zero S] {sr total : Nat} {commands : Nat → List (Command P C × Luck)} {ks : List (Call S P C)}
    (h : RenderCalls sr total commands ks) (k : Call S P C) (h1 : k.commands = commands ks.length)
    (h2 : k.output.channelCount = 2) (h3 : k.output.frameCount = min 1024 (total - ks.length * 1024))
    (h4 : k.output.WF) (h5 : k.output.Writable)
    (h6 : k.input = Buf.new (min 1024 (total - ks.length * 1024)) 2 sr) : RenderCalls sr total commands (ks ++ [k]) := by
  constructor
  intro i k' hk'
  rcases Nat.lt_trichotomy i ks.length with hi | hi | hi
  · rw [List.getElem?_append_left hi] at hk'
    exact h.shape i k' hk'
  · subst hi
    rw [List.getElem?_append_right (le_refl _), Nat.sub_self] at hk'
    injection hk' with hk'
    subst hk'
    exact ⟨h1, h2, h3, h4, h5, h6⟩
  · rw [List.getElem?_eq_none (by simp; omega)] at hk'
    cases hk'

/-- The call that comes next. -/
def nextCall [Zero S] (sr total : Nat) (env : Nat → Nat → Env) (commands : Nat → List (Command P C × Luck)) (n : Nat)
    (b : Buf S) : Call S P C :=
  ⟨commands n, Buf.new (min 1024 (total - n * 1024)) 2 sr,
    .slice b ⟨0, n * 1024, 2, min 1024 (total - n * 1024)⟩ true, env n⟩

theorem next_calls [Zero S] [Add S] {ops : NodeOps S P C} {value : S → F32} {mf mc sr total n : Nat}
    {env : Nat → Nat → Env} {commands : Nat → List (Command P C × Luck)} {s : Processor S P × Buf S × List Int}
    {ks : List (Call S P C)} {x : Nat → Nat → S} (h : Rendering ops value mf mc sr total commands n s ks x)
    (hn : n * 1024 < total) : RenderCalls sr total commands (ks ++ [nextCall sr total env commands n s.2.1]) := by
  apply renderCalls_snoc h.calls
  · rw [h.count]; rfl
  · rfl
  · rw [h.count]; rfl
  · refine ⟨h.wf, ?_, ?_⟩
    · rw [h.channels]
      exact le_refl _
    · rw [h.frames]
      show n * 1024 + min 1024 (total - n * 1024) ≤ total
      omega
  · exact ⟨rfl, h.writable⟩
  · rw [h.count]; rfl

theorem before_call {i n f total : Nat} (hi : i < n) (hf : f < min 1024 (total - i * 1024)) :
    i * 1024 + f < n * 1024 := by omega

theorem after_call {n total : Nat} (hn : n * 1024 < total) :
    min total ((n + 1) * 1024) = min total (n * 1024) + min 1024 (total - n * 1024) := by omega

/-- One more call of the loop. -/
theorem rendering_step [AddZeroClass S] {ops : NodeOps S P C} {value : S → F32} {mf mc sr total n : Nat} (hm : 0 < mf)
    {env : Nat → Nat → Env} {commands : Nat → List (Command P C × Luck)} (hapi : ∀ i, ∀ c ∈ commands i, c.1.Api)
    {s : Processor S P × Buf S × List Int} {ks : List (Call S P C)} {x : Nat → Nat → S}
    (h : Rendering ops value mf mc sr total commands n s ks x) (hn : n * 1024 < total) {o : Buf S} {E : Processor S P}
    (hc : s.1.process ops (env n) (commands n) (nextCall sr total env commands n s.2.1).input
      (nextCall sr total env commands n s.2.1).output = .ok (o, E)) :
    ∃ s' y, processBlock ops value (env n) (commands n) (min 1024 (total - n * 1024)) (n * 1024) s.1 s.2.1 s.2.2 =
        .ok s' ∧ s'.1 = E ∧
      Rendering ops value mf mc sr total commands (n + 1) s' (ks ++ [nextCall sr total env commands n s.2.1]) y := by
  set k : Call S P C := nextCall sr total env commands n s.2.1 with hkd
  have hks := next_calls (env := env) h hn
  rw [← hkd] at hks
  have hv := renderCalls_valid hapi hks
  obtain ⟨V, _, _, hE⟩ := calls_looks hm ks s.1 (fun l hl => hv l (by simp [hl])) h.run
  obtain ⟨p', rfl, q1, q2, q3, q4⟩ := process_slice hm hE (hv k (by simp)) (p := s.2.1) rfl hc
  set r : Range := ⟨0, n * 1024, 2, min 1024 (total - n * 1024)⟩ with hr
  have hex : ∀ c f, ∃ v, c < 2 → f < min 1024 (total - n * 1024) → (slice p' r true).sample? c f = some v := by
    intro c f
    by_cases hcf : c < 2 ∧ f < min 1024 (total - n * 1024)
    · obtain ⟨v, hv⟩ := sample?_isSome _ q4 c f hcf.1 hcf.2
      exact ⟨v, fun _ _ => hv⟩
    · exact ⟨0, fun a b => absurd ⟨a, b⟩ hcf⟩
  choose z hz using hex
  have hw := writeFrames_ok value (slice p' r true) q4 z (fun c f hc hf => hz c f hc hf) s.2.2
  refine ⟨(E, p', s.2.2 ++ interleaved 2 (min 1024 (total - n * 1024)) (fun c f => encode (value (z c f)))),
    fun c f => if f < n * 1024 then x c f else z c (f - n * 1024), ?_, rfl, ?_⟩
  · have hsl : s.2.1.sliceFrames (n * 1024) (min 1024 (total - n * 1024)) true = .ok (.slice s.2.1 r true) := by
      unfold sliceFrames mkSlice rangeIsValid
      rw [h.channels, h.frames, if_pos]
      simp only
      rw [if_neg (by omega), if_neg (by omega)]
    unfold processBlock
    rw [ok_bind hsl, h.channels, h.rate]
    refine (ok_bind hc).trans ?_
    rw [ok_bind hw]
    rfl
  · refine ⟨by simp [h.count], ?_, q2, q3, by rw [← q1.channelCount, h.channels], by rw [← q1.frameCount, h.frames],
      by rw [← q1.sampleRate, h.rate], hks, ?_, ?_⟩
    · rw [calls_append]
      refine ⟨s.1, h.run, ?_⟩
      rw [Processor.calls]
      exact ok_bind hc
    · intro i k' E1 o E2 hk' hE1 ho c f hc' hf
      rcases Nat.lt_trichotomy i ks.length with hi | hi | hi
      · rw [List.getElem?_append_left hi] at hk'
        rw [List.take_append_of_le_length hi.le] at hE1
        have hf' := hf
        rw [(h.calls.shape i k' hk').2.2.1] at hf'
        rw [h.heard i k' E1 o E2 hk' hE1 ho c f hc' hf, if_pos]
        exact before_call (h.count ▸ hi) hf'
      · subst hi
        rw [List.getElem?_append_right (le_refl _), Nat.sub_self] at hk'
        injection hk' with hk'
        subst hk'
        rw [List.take_append_of_le_length (le_refl _), List.take_length, h.run] at hE1
        injection hE1 with hE1
        subst hE1
        have ho' := hc.symm.trans ho
        injection ho' with ho'
        injection ho' with ho1 ho2
        subst ho1
        rw [h.count, if_neg (by omega), Nat.add_sub_cancel_left]
        exact hz c f hc' hf
      · rw [List.getElem?_eq_none (by simp; omega)] at hk'
        cases hk'
    · have e := after_call hn
      have e' : min total (n * 1024) = n * 1024 := min_eq_right hn.le
      simp only
      rw [e, interleaved_add, h.file, e']
      congr 1
      · apply interleaved_congr
        intro c f _ hf
        rw [if_pos hf]
      · apply interleaved_congr
        intro c f _ _
        rw [if_neg (by omega), Nat.add_sub_cancel_left]

theorem rendering_start [Zero S] [Add S] (ops : NodeOps S P C) (value : S → F32) (mf mc sr total : Nat)
    (commands : Nat → List (Command P C × Luck)) :
    Rendering ops value mf mc sr total commands 0 (new sr mc mf, Buf.new total 2 sr, []) [] silence :=
  ⟨rfl, rfl, new_wf _ _ _, trivial, rfl, rfl, rfl, ⟨by simp⟩, by simp, by simp [interleaved]⟩

/-- If the engine runs through every such series of calls, the loop runs. -/
theorem renderLoop_ok [AddZeroClass S] {ops : NodeOps S P C} (value : S → F32) {mf mc sr : Nat} (total : Nat) (hm : 0 < mf)
    (env : Nat → Nat → Env) {commands : Nat → List (Command P C × Luck)} (hapi : ∀ i, ∀ c ∈ commands i, c.1.Api)
    (hrun : ∀ ks : List (Call S P C), RenderCalls sr total commands ks → ∃ E, calls ops (new sr mc mf) ks = .ok E) :
    ∀ n, (∀ i < n, i * 1024 < total) → ∃ s ks x,
      renderLoop ops value env commands total (List.range n) (new sr mc mf, Buf.new total 2 sr, []) = .ok s ∧
      Rendering ops value mf mc sr total commands n s ks x := by
  intro n
  induction n with
  | zero => intro _; exact ⟨_, _, _, rfl, rendering_start ..⟩
  | succ n ih =>
    intro hn
    obtain ⟨s, ks, x, h1, h2⟩ := ih (fun i hi => hn i (by omega))
    obtain ⟨E', hE'⟩ := hrun _ (next_calls (env := env) h2 (hn n (by omega)))
    obtain ⟨E1, e1, e2⟩ := (calls_append _ _ _ _).mp hE'
    rw [h2.run] at e1
    injection e1 with e1
    subst e1
    obtain ⟨o, E, e3, _⟩ := calls_cons e2
    obtain ⟨s', y, a1, _, a3⟩ := rendering_step hm hapi h2 (hn n (by omega)) e3
    refine ⟨s', _, y, ?_, a3⟩
    unfold renderLoop at h1 ⊢
    rw [List.range_succ, List.foldlM_append, ok_bind h1, List.foldlM_cons, ok_bind a1]
    rfl

/-- If the loop runs, it has made such a series of calls. -/
theorem renderLoop_calls [AddZeroClass S] {ops : NodeOps S P C} (value : S → F32) {mf mc sr : Nat} (total : Nat)
    (hm : 0 < mf) (env : Nat → Nat → Env) {commands : Nat → List (Command P C × Luck)}
    (hapi : ∀ i, ∀ c ∈ commands i, c.1.Api) :
    ∀ n s, (∀ i < n, i * 1024 < total) →
      renderLoop ops value env commands total (List.range n) (new sr mc mf, Buf.new total 2 sr, []) = .ok s →
      ∃ ks x, Rendering ops value mf mc sr total commands n s ks x := by
  intro n
  induction n with
  | zero =>
    intro s _ h
    injection h with h
    subst h
    exact ⟨_, _, rendering_start ..⟩
  | succ n ih =>
    intro s' hn h
    unfold renderLoop at h
    rw [List.range_succ, List.foldlM_append] at h
    obtain ⟨s, h1, h2⟩ := bind_ok h
    obtain ⟨ks, x, h3⟩ := ih s (fun i hi => hn i (by omega)) h1
    rw [List.foldlM_cons] at h2
    obtain ⟨s2, h4, h5⟩ := bind_ok h2
    injection h5 with h5
    subst h5
    have h4' := h4
    unfold processBlock at h4'
    obtain ⟨sl, g1, g2⟩ := bind_ok h4'
    obtain ⟨⟨o, E⟩, g3, g4⟩ := bind_ok g2
    have hsl : s.2.1.sliceFrames (n * 1024) (min 1024 (total - n * 1024)) true =
        .ok (.slice s.2.1 ⟨0, n * 1024, 2, min 1024 (total - n * 1024)⟩ true) := by
      have := hn n (by omega)
      unfold sliceFrames mkSlice rangeIsValid
      rw [h3.channels, h3.frames, if_pos]
      simp only
      rw [if_neg (by omega), if_neg (by omega)]
    rw [hsl] at g1
    injection g1 with g1
    subst g1
    rw [h3.channels, h3.rate] at g3
    obtain ⟨s3, y, a1, _, a3⟩ := rendering_step (env := env) hm hapi h3 (hn n (by omega)) g3
    rw [h4] at a1
    injection a1 with a1
    subst a1
    exact ⟨_, y, a3⟩

theorem renderCalls_frames [Zero S] {sr total : Nat} {commands : Nat → List (Command P C × Luck)}
    {ks : List (Call S P C)} (h : RenderCalls sr total commands ks) : ∀ i, i ≤ ks.length →
    framesIn (ks.take i) = min total (i * 1024) := by
  intro i
  induction i with
  | zero => intro _; simp [framesIn]
  | succ i ih =>
    intro hi
    have hk : ks[i]? = some ks[i] := List.getElem?_eq_getElem (by omega)
    rw [List.take_succ, hk, Option.toList_some, Gain.framesIn_append, ih (by omega), (h.shape i _ hk).2.2.1]
    omega

end Wav
end Rawdio
