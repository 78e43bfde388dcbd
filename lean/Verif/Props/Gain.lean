import Verif.Lemmas.GainTime
import Verif.Props.Buffers2
import Verif.Props.Client

/-!
# The gain node and the automation of its gain in a running engine (C80)
-/

namespace Rawdio
namespace Gain

open RealtimeParameter Processor

/-- C80: the processor of a gain node multiplies every sample of the input by the gain of its frame, for every
alignment of the data and all tests that only accept 0 and 1; channels that the input does not have are treated
as if the output's own samples were the input. -/
theorem C80_processor {isZero isOne : ℝ → Bool} (hz : ∀ x, isZero x = true → x = 0)
    (ho : ∀ x, isOne x = true → x = 1) (al : Nat → Nat × Nat) (gain : List ℝ) (input output : Buf ℝ)
    (hv : ValidBlock input output) (hg : gain.length = output.frameCount) :
    ∃ b', processAudio isZero isOne al gain input output = .ok b' ∧ output.SameShape b' ∧
      ∀ c f, c < output.channelCount → f < output.frameCount → ∃ x g, gain[f]? = some g ∧
        (if c < input.channelCount then input.sample? c f else output.sample? c f) = some x ∧
        b'.sample? c f = some (x * g) := by
  obtain ⟨b1, h1, h2, h3, h4, h5⟩ := Buf.C30_copy_from output input hv.outWF hv.writable hv.inWF .origin .origin
    (min output.channelCount input.channelCount) output.frameCount (by simp [Loc.origin])
    (by simpa [Loc.origin] using hv.enough) (by simp [Loc.origin]) (by simp [Loc.origin])
  obtain ⟨b2, e1, e2, e3, e4, e5⟩ := Buf.C36_apply_gain isZero isOne hz ho al b1 gain h3 h4
    (by rw [hg, h2.frameCount])
  refine ⟨b2, ?_, h2.trans e2, ?_⟩
  · unfold processAudio
    rw [h1]
    exact e1
  · intro c f hc hf
    have hgf : gain[f]? = some (gain[f]'(by omega)) := List.getElem?_eq_getElem _
    have hs : b1.sample? c f = if c < input.channelCount then input.sample? c f else output.sample? c f := by
      rw [h5 c f]
      by_cases hi : c < input.channelCount
      · rw [if_pos (by simp only [Loc.origin]; omega), if_pos hi]
        simp [Loc.origin]
      · rw [if_neg (by simp only [Loc.origin]; omega), if_neg hi]
    obtain ⟨x, hx⟩ := Buf.sample?_isSome b1 h3 c f (by rw [← h2.channelCount]; exact hc)
      (by rw [← h2.frameCount]; exact hf)
    refine ⟨x, _, hgf, by rw [← hs, hx], ?_⟩
    rw [e5 c f (by rw [← h2.channelCount]; exact hc) (by rw [← h2.frameCount]; exact hf), hx, hgf]
    rfl

/-- C80: the node as it is used in the engine does what its processor does with the values of its parameter. -/
theorem C80_node {isZero isOne : ℝ → Bool} (hz : ∀ x, isZero x = true → x = 0)
    (ho : ∀ x, isOne x = true → x = 1) (al : Nat → Nat × Nat) (p : RealtimeParameter ℝ) (t : Int) (sr : Nat)
    (input output : Buf ℝ) (hv : ValidBlock input output) :
    ∃ b' samples,
      processAudio isZero isOne al (p.process realArith t output.frameCount sr).1 input output = .ok b' ∧
      (ops isZero isOne).run p ⟨output.frameCount, sr, t, input.sample?, output.sample?⟩ =
        .ok (samples, (p.process realArith t output.frameCount sr).2) ∧
      ∀ c f, c < output.channelCount → f < output.frameCount → b'.sample? c f = some (samples c f) := by
  obtain ⟨b', h1, _, h3⟩ := C80_processor hz ho al (p.process realArith t output.frameCount sr).1 input output hv
    (process_length ..)
  refine ⟨b', _, h1, rfl, ?_⟩
  intro c f hc hf
  obtain ⟨x, g, e1, e2, e3⟩ := h3 c f hc hf
  rw [e3, sample_eq hz ho _ _ _ (by rw [process_length]; exact hf), List.getD_eq_getElem?_getD, e1]
  congr 2
  dsimp only
  by_cases hi : c < input.channelCount
  · rw [if_pos hi] at e2
    rw [e2]; rfl
  · rw [if_neg hi] at e2
    rw [Buf.sample?_eq_none input c f (by omega), e2]; rfl

/-- The calls of the program that sends `gainCommands`. -/
noncomputable def gainProgram (id n : Nat) (changes : List (ParameterChange ℝ)) :
    List (ApiCall (RealtimeParameter ℝ) (ParameterChange ℝ)) :=
  [.create id n n initial, .connectToInput ⟨id, n⟩, .connectToOutput ⟨id, n⟩, .start] ++
    changes.map (ApiCall.change ⟨id, n⟩)

theorem gainProgram_commands (id n : Nat) (changes : List (ParameterChange ℝ)) :
    (gainProgram id n changes).map ApiCall.command = gainCommands id n true changes := by
  simp [gainProgram, gainCommands, ApiCall.command, Function.comp_def]

theorem gainProgram_allowed (id n mc : Nat) (hn : n ≤ mc) (changes : List (ParameterChange ℝ)) :
    Allowed (fun h c => h.Typed c ∧ h.Careful mc c) Holding.empty (gainProgram id n changes) ∧
      drops (gainProgram id n changes) = 0 := by
  have hrest : ∀ cs : List (ParameterChange ℝ), Allowed (fun h c => h.Typed c ∧ h.Careful mc c)
      ⟨[⟨id, n, n⟩], []⟩ (cs.map (ApiCall.change (P := RealtimeParameter ℝ) ⟨id, n⟩)) := by
    intro cs
    induction cs with
    | nil => trivial
    | cons c cs ih => exact ⟨⟨⟨_, .head _, rfl, rfl⟩, trivial⟩, ih⟩
  refine ⟨⟨⟨by simp [Holding.Typed, Holding.empty], hn, hn, by simp [Holding.empty]⟩,
    ⟨⟨_, .head _, rfl, rfl⟩, trivial⟩, ⟨⟨_, .head _, rfl, rfl⟩, trivial⟩, ⟨trivial, trivial⟩, hrest _⟩, ?_⟩
  rw [drops, List.countP_eq_zero]
  intro c hc
  simp only [gainProgram, List.mem_append, List.mem_cons, List.not_mem_nil, or_false, List.mem_map] at hc
  rcases hc with (rfl | rfl | rfl | rfl) | ⟨c, _, rfl⟩ <;> simp

theorem playsGain_history {id n : Nat} {changes : Nat → List (ParameterChange ℝ)} (ks : List GainCall) :
    PlaysGain id n changes ks → history ks = [] ∨ ∃ cs, history ks = gainCommands id n true cs := by
  induction ks using List.reverseRecOn with
  | nil => intro _; exact .inl rfl
  | append_singleton ks k ih =>
    intro hp
    have hk := hp ks.length k (by simp)
    have hh : history (ks ++ [k]) = history ks ++ k.commands.map Prod.fst := by simp [history]
    right
    rcases ih (fun i k' hk' => hp i k' (by
        rw [List.getElem?_append_left (by by_contra hn; rw [List.getElem?_eq_none (by omega)] at hk'; cases hk')]
        exact hk')) with h | ⟨cs, h⟩
    · cases hks : ks with
      | nil =>
        subst hks
        exact ⟨changes 0, by simpa [history] using hk⟩
      | cons a as =>
        have := hp 0 a (by simp [hks])
        rw [hks] at h
        simp [history, this, gainCommands] at h
    · have h0 : ks ≠ [] := by rintro rfl; simp [history, gainCommands] at h
      refine ⟨cs ++ changes ks.length, ?_⟩
      rw [hh, h, hk]
      simp [gainCommands, h0]

/-- C80: all process calls of such a session succeed, if the node is not wider than the engine. -/
theorem C80_runs (isZero isOne : ℝ → Bool) (id n mf mc sr : Nat) (hm : 0 < mf) (hn : n ≤ mc)
    (changes : Nat → List (ParameterChange ℝ)) (ks : List GainCall) (hks : ∀ l ∈ ks, l.Valid)
    (hp : PlaysGain id n changes ks) : ∃ E, calls (ops isZero isOne) (new sr mc mf) ks = .ok E := by
  have hh : ∃ cs, history ks <+: (gainProgram id n cs).map ApiCall.command := by
    rcases playsGain_history ks hp with h | ⟨cs, h⟩
    · exact ⟨[], by rw [h]; exact List.nil_prefix⟩
    · exact ⟨cs, by rw [h, gainProgram_commands]⟩
  obtain ⟨cs, hh⟩ := hh
  exact C79_careful_programs_run_partial _ mf mc sr hm (fun s b => ⟨_, rfl⟩) (fun s r => ⟨_, rfl⟩) _
    (gainProgram_allowed id n mc hn cs).1 (by rw [(gainProgram_allowed id n mc hn cs).2]; omega) ks hks hh

/-- C80: whatever changes are requested and whenever, and however the frames are divided into process calls and
blocks: frame `F` of the session leaves the engine as the frame of the input, multiplied by value number `F` of
the parameter; other channels than the node's are silent. -/
theorem C80_stream {isZero isOne : ℝ → Bool} (hz : ∀ x, isZero x = true → x = 0)
    (ho : ∀ x, isOne x = true → x = 1) (id n mf mc sr : Nat) (hm : 0 < mf)
    (changes : Nat → List (ParameterChange ℝ)) (ks : List GainCall) (k : GainCall)
    (hks : ∀ l ∈ ks ++ [k], l.Valid) (hp : PlaysGain id n changes (ks ++ [k]))
    (E E' : Processor ℝ (RealtimeParameter ℝ)) (hE : calls (ops isZero isOne) (new sr mc mf) ks = .ok E)
    (o : Buf ℝ) (h : E.process (ops isZero isOne) k.env k.commands k.input k.output = .ok (o, E')) :
    ∃ hist, GainHistory mf sr changes (ks ++ [k]) hist ∧
      (gainValues sr initial hist).1.length = framesIn (ks ++ [k]) ∧
      ∀ c f, c < k.output.channelCount → f < k.output.frameCount → o.sample? c f = some
        (if c < n ∧ c < mc then
          k.input.sampleOrSilence c f * (gainValues sr initial hist).1.getD (framesIn ks + f) 0
        else 0) := by
  obtain ⟨V, s1, s2, s3⟩ := calls_looks hm ks E (fun l hl => hks l (by simp [hl])) hE
  obtain ⟨W, w1, _, _, _⟩ := process_looks hm s3 s2 (hks k (by simp)) h
  obtain ⟨hist, h1, h2⟩ := session_stream hz ho (n := n) (changes := changes) hm s1 (fun i k' hk' => hp i k' (by
    rw [List.getElem?_append_left (by by_contra hn; rw [List.getElem?_eq_none (by omega)] at hk'; cases hk')]
    exact hk'))
  obtain ⟨bs, b1, _, b3⟩ := step_stream hz ho hm (first_or_playing h1.1 h2) (hp ks.length k (by simp)) w1
  have hH := history_snoc h1 b1
  refine ⟨_, hH, ?_, ?_⟩
  · rw [gainValues_length, history_frames _ hH]
  · intro c f hc hf
    have hl : (gainValues sr initial hist).1.length = framesIn ks := by
      rw [gainValues_length, history_frames _ h1]
    rw [b3 c f hc hf, gainValues_snoc, getD_right (by omega), hl, Nat.add_sub_cancel_left]

/-- C80: an immediate change to `v` at any time, requested before any process call, in a session of any calls: frames
that come more than 1.5 units of 2⁻³² s before its time, and frames of calls before the request, leave the engine
as they came in; frames that come 1.5 units after its time or later, and after the request, are multiplied by `v`.
Missing for the full claim: frames within 1.5 units of the time. -/
theorem C80_change_partial {isZero isOne : ℝ → Bool} (hz : ∀ x, isZero x = true → x = 0)
    (ho : ∀ x, isOne x = true → x = 1) (id n mf mc sr : Nat) (hm : 0 < mf) (hsr : 0 < sr) (hle : sr ≤ 2 ^ 30)
    (i : Nat) (v : ℝ) (e : Int) (ks : List GainCall) (k : GainCall)
    (hks : ∀ l ∈ ks ++ [k], l.Valid) (hp : PlaysGain id n (onlyAt i ⟨v, e, .immediate⟩) (ks ++ [k]))
    (E E' : Processor ℝ (RealtimeParameter ℝ)) (hE : calls (ops isZero isOne) (new sr mc mf) ks = .ok E)
    (o : Buf ℝ) (h : E.process (ops isZero isOne) k.env k.commands k.input k.output = .ok (o, E'))
    (c f : Nat) (hc : c < k.output.channelCount) (hcn : c < n) (hcm : c < mc) (hf : f < k.output.frameCount) :
    ((ks.length < i ∨ ((framesIn ks + f : Nat) : ℚ) / sr * 2 ^ 32 + 3 / 2 < e) →
      o.sample? c f = some (k.input.sampleOrSilence c f)) ∧
    (i ≤ ks.length → (e : ℚ) + 3 / 2 ≤ ((framesIn ks + f : Nat) : ℚ) / sr * 2 ^ 32 →
      o.sample? c f = some (k.input.sampleOrSilence c f * v)) := by
  obtain ⟨hist, h1, h2, h3⟩ := C80_stream hz ho id n mf mc sr hm _ ks k hks hp E E' hE o h
  have hF : framesIn ks + f < framesIn (ks ++ [k]) := by rw [framesIn_append]; omega
  obtain ⟨t, t1, t2⟩ := one_change_session hsr hle h1 hF
  have ht := abs_le.mp (history_times hsr (by omega) _ h1 t1).2
  have h1' : Timestamp.one = 2 ^ 32 := by norm_num [Timestamp.one]
  rw [h1'] at ht
  rw [h3 c f hc hf, if_pos ⟨hcn, hcm⟩, t2]
  constructor
  · intro hb
    rw [if_neg, mul_one]
    rintro ⟨a1, a2, a3⟩
    have a3' : (e : ℚ) ≤ t := by exact_mod_cast a3
    rcases hb with hb | hb
    · rw [List.length_append, List.length_singleton] at a2; omega
    · linarith [ht.2]
  · intro hi he
    rw [if_pos]
    have hte : (e : ℚ) ≤ t := by linarith [ht.1]
    refine ⟨?_, by rw [List.length_append, List.length_singleton]; omega, by exact_mod_cast hte⟩
    rw [List.take_append_of_le_length hi]
    exact (framesIn_take ks i).trans (Nat.le_add_right _ _)

/-- C80: a change at the time of a frame is made exactly at that frame, if it was requested by then. -/
def ChangesOnTheirFrame : Prop :=
  ∀ {isZero isOne : ℝ → Bool}, (∀ x, isZero x = true → x = 0) → (∀ x, isOne x = true → x = 1) →
  ∀ (id n mf mc sr : Nat), 0 < mf → 0 < sr → sr ≤ 2 ^ 30 →
  ∀ (i : Nat) (v : ℝ) (N : Nat) (ks : List GainCall) (k : GainCall), (∀ l ∈ ks ++ [k], l.Valid) →
    PlaysGain id n (onlyAt i ⟨v, Timestamp.fromSamples N sr, .immediate⟩) (ks ++ [k]) → i ≤ ks.length →
  ∀ (E E' : Processor ℝ (RealtimeParameter ℝ)), calls (ops isZero isOne) (new sr mc mf) ks = .ok E →
  ∀ (o : Buf ℝ), E.process (ops isZero isOne) k.env k.commands k.input k.output = .ok (o, E') →
  ∀ (c f : Nat), c < k.output.channelCount → c < n → c < mc → f < k.output.frameCount →
    o.sample? c f = some (k.input.sampleOrSilence c f * if framesIn ks + f < N then 1 else v)

/-- C80 for all frames but the one the change is for: frames before it keep the old gain, frames after it have the
new one. Missing for the full claim: the frame itself. -/
theorem C80_on_frame_partial {isZero isOne : ℝ → Bool} (hz : ∀ x, isZero x = true → x = 0)
    (ho : ∀ x, isOne x = true → x = 1) (id n mf mc sr : Nat) (hm : 0 < mf) (hsr : 0 < sr) (hle : sr ≤ 2 ^ 30)
    (i : Nat) (v : ℝ) (N : Nat) (ks : List GainCall) (k : GainCall) (hks : ∀ l ∈ ks ++ [k], l.Valid)
    (hp : PlaysGain id n (onlyAt i ⟨v, Timestamp.fromSamples N sr, .immediate⟩) (ks ++ [k])) (hi : i ≤ ks.length)
    (E E' : Processor ℝ (RealtimeParameter ℝ)) (hE : calls (ops isZero isOne) (new sr mc mf) ks = .ok E)
    (o : Buf ℝ) (h : E.process (ops isZero isOne) k.env k.commands k.input k.output = .ok (o, E'))
    (c f : Nat) (hc : c < k.output.channelCount) (hcn : c < n) (hcm : c < mc) (hf : f < k.output.frameCount)
    (hN : framesIn ks + f ≠ N) :
    o.sample? c f = some (k.input.sampleOrSilence c f * if framesIn ks + f < N then 1 else v) := by
  obtain ⟨h1, h2⟩ := C80_change_partial hz ho id n mf mc sr hm hsr hle i v _ ks k hks hp E E' hE o h c f hc hcn
    hcm hf
  have hq := abs_le.mp (Timestamp.fromSamples_error N sr)
  have h1' : Timestamp.one = 2 ^ 32 := by norm_num [Timestamp.one]
  rw [h1'] at hq
  have hpos : (0 : ℚ) < sr := by exact_mod_cast hsr
  have hu : (4 : ℚ) ≤ 1 / sr * 2 ^ 32 := by
    rw [div_mul_eq_mul_div, le_div_iff₀ hpos]
    have : (sr : ℚ) ≤ 2 ^ 30 := by exact_mod_cast hle
    linarith
  have hmono : ∀ a b : Nat, a < b → (a : ℚ) / sr * 2 ^ 32 + 1 / sr * 2 ^ 32 ≤ (b : ℚ) / sr * 2 ^ 32 := by
    intro a b hab
    rw [← add_mul, ← add_div]
    apply mul_le_mul_of_nonneg_right _ (by norm_num)
    apply div_le_div_of_nonneg_right _ hpos.le
    exact_mod_cast hab
  by_cases hl : framesIn ks + f < N
  · rw [if_pos hl, mul_one]
    exact h1 (.inr (by linarith [hmono _ _ hl, hq.1]))
  · rw [if_neg hl]
    exact h2 hi (by linarith [hmono N (framesIn ks + f) (by omega), hq.2])

/-- C80: and also for the frame itself, if it is the first of a process call. -/
theorem C80_first_frame {isZero isOne : ℝ → Bool} (hz : ∀ x, isZero x = true → x = 0)
    (ho : ∀ x, isOne x = true → x = 1) (id n mf mc sr : Nat) (hm : 0 < mf) (hsr : 0 < sr) (hle : sr ≤ 2 ^ 30)
    (i : Nat) (v : ℝ) (N : Nat) (ks : List GainCall) (k : GainCall) (hks : ∀ l ∈ ks ++ [k], l.Valid)
    (hp : PlaysGain id n (onlyAt i ⟨v, Timestamp.fromSamples N sr, .immediate⟩) (ks ++ [k])) (hi : i ≤ ks.length)
    (E E' : Processor ℝ (RealtimeParameter ℝ)) (hE : calls (ops isZero isOne) (new sr mc mf) ks = .ok E)
    (o : Buf ℝ) (h : E.process (ops isZero isOne) k.env k.commands k.input k.output = .ok (o, E'))
    (c : Nat) (hc : c < k.output.channelCount) (hcn : c < n) (hcm : c < mc) (hf : 0 < k.output.frameCount)
    (hN : framesIn ks = N) :
    o.sample? c 0 = some (k.input.sampleOrSilence c 0 * v) := by
  obtain ⟨hist, h1, h2, h3⟩ := C80_stream hz ho id n mf mc sr hm _ ks k hks hp E E' hE o h
  have hF : framesIn ks + 0 < framesIn (ks ++ [k]) := by rw [framesIn_append]; omega
  obtain ⟨t, t1, t2⟩ := one_change_session hsr hle h1 hF
  have ht := history_first hsr (by omega) h1 hf t1
  rw [h3 c 0 hc hf, if_pos ⟨hcn, hcm⟩, t2, if_pos]
  refine ⟨?_, by rw [List.length_append, List.length_singleton]; omega, by rw [ht, hN]⟩
  rw [List.take_append_of_le_length hi]
  exact framesIn_take ks i

/-- A mono buffer of ones. -/
def ones (frames : Nat) : Buf ℝ := .owned (List.replicate frames 1) 1 frames 48000

/-- Calls of the given numbers of frames, with a change of the gain requested before the first. -/
noncomputable def onesCall (c : ParameterChange ℝ) (i frames : Nat) : GainCall :=
  ⟨(gainCommands 1 1 (i == 0) (onlyAt 0 c i)).map fun x => (x, .plain), ones frames, ones frames, fun _ => Env.plain⟩

theorem onesCall_valid (c : ParameterChange ℝ) (i frames : Nat) : (onesCall c i frames).Valid := by
  refine ⟨?_, ?_, trivial, le_refl _, ?_⟩
  · simp [onesCall, ones, Buf.WF]
  · simp [onesCall, ones, Buf.WF]
  · intro x hx
    obtain ⟨y, hy, rfl⟩ := List.mem_map.mp hx
    simp only [gainCommands, List.mem_append, List.mem_map] at hy
    rcases hy with hy | ⟨_, _, rfl⟩
    · split at hy
      · simp only [List.mem_cons, List.not_mem_nil, or_false] at hy
        rcases hy with rfl | rfl | rfl | rfl <;> trivial
      · cases hy
    · trivial

theorem onesCalls_play (c : ParameterChange ℝ) (a b : Nat) :
    PlaysGain 1 1 (onlyAt 0 c) ([onesCall c 0 a] ++ [onesCall c 1 b]) := by
  intro i k hk
  match i with
  | 0 =>
    simp only [List.singleton_append, List.getElem?_cons_zero, Option.some.injEq] at hk
    subst hk
    simp [onesCall, Function.comp_def]
  | 1 =>
    simp only [List.singleton_append, List.getElem?_cons_succ, List.getElem?_cons_zero, Option.some.injEq] at hk
    subst hk
    simp [onesCall, Function.comp_def]
  | i + 2 => simp at hk

/-- Two calls of an engine whose gain is set to 0 from some time on, and their result. -/
theorem onesCalls_run (c : ParameterChange ℝ) (a b : Nat) : ∃ E E' o,
    calls (ops (fun x => x = 0) (fun x => x = 1)) (new 48000 2 4) [onesCall c 0 a] = .ok E ∧
    E.process (ops (fun x => x = 0) (fun x => x = 1)) (onesCall c 1 b).env (onesCall c 1 b).commands
      (onesCall c 1 b).input (onesCall c 1 b).output = .ok (o, E') := by
  obtain ⟨E', h⟩ := C80_runs (fun x => x = 0) (fun x => x = 1) 1 1 4 2 48000 (by norm_num) (by norm_num) _ _
    (by
      intro l hl
      simp only [List.singleton_append, List.mem_cons, List.not_mem_nil, or_false] at hl
      rcases hl with rfl | rfl <;> exact onesCall_valid ..) (onesCalls_play c a b)
  obtain ⟨E, h1, h2⟩ := (calls_append _ _ _ _).mp h
  obtain ⟨o, E1, h3, _⟩ := calls_cons h2
  exact ⟨E, E1, o, h1, h3⟩

/-- The hypotheses of the theorems above, for a change that comes at the fourth frame of a session of two calls. -/
example : ∃ (ks : List GainCall) (k : GainCall) (E E' : Processor ℝ (RealtimeParameter ℝ)) (o : Buf ℝ),
    (∀ l ∈ ks ++ [k], l.Valid) ∧
    PlaysGain 1 1 (onlyAt 0 ⟨0, Timestamp.fromSamples (3 : Nat) 48000, .immediate⟩) (ks ++ [k]) ∧ 0 ≤ ks.length ∧
    calls (ops (fun x => x = 0) (fun x => x = 1)) (new 48000 2 4) ks = .ok E ∧
    E.process (ops (fun x => x = 0) (fun x => x = 1)) k.env k.commands k.input k.output = .ok (o, E') ∧
    0 < k.output.channelCount ∧ 4 < k.output.frameCount ∧ framesIn ks = 3 := by
  obtain ⟨E, E', o, h1, h2⟩ := onesCalls_run ⟨0, Timestamp.fromSamples (3 : Nat) 48000, .immediate⟩ 3 10
  refine ⟨_, _, E, E', o, ?_, onesCalls_play _ 3 10, Nat.zero_le _, h1, h2, ?_, ?_, ?_⟩
  · intro l hl
    simp only [List.singleton_append, List.mem_cons, List.not_mem_nil, or_false] at hl
    rcases hl with rfl | rfl <;> exact onesCall_valid ..
  · simp [onesCall, ones, Buf.channelCount]
  · simp [onesCall, ones, Buf.frameCount]
  · simp [framesIn, onesCall, ones, Buf.frameCount]

/-- Buffers and a gain that meet the hypotheses of `C80_processor` and `C80_node`. -/
example : ValidBlock (ones 10) (ones 10) ∧ ([2, 3, 4, 5, 6, 7, 8, 9, 10, 11] : List ℝ).length = (ones 10).frameCount := by
  refine ⟨⟨?_, ?_, trivial, ?_, le_refl _⟩, rfl⟩ <;> simp [ones, Buf.WF, Buf.frameCount]

/-- C80 is violated: at 48 kHz, with a first call of one frame and a second of two, a change at the time of the
third frame is not made at that frame, because the time of the frame is rounded twice. -/
theorem C80_on_frame_violated : ¬ ChangesOnTheirFrame := by
  intro hall
  obtain ⟨E, E', o, h1, h2⟩ := onesCalls_run ⟨0, Timestamp.fromSamples (2 : Nat) 48000, .immediate⟩ 1 2
  have hv : ∀ l ∈ [onesCall ⟨0, Timestamp.fromSamples (2 : Nat) 48000, .immediate⟩ 0 1] ++
      [onesCall ⟨0, Timestamp.fromSamples (2 : Nat) 48000, .immediate⟩ 1 2], l.Valid := by
    intro l hl
    simp only [List.singleton_append, List.mem_cons, List.not_mem_nil, or_false] at hl
    rcases hl with rfl | rfl <;> exact onesCall_valid ..
  have hz : ∀ x : ℝ, decide (x = 0) = true → x = 0 := fun x h => of_decide_eq_true h
  have ho : ∀ x : ℝ, decide (x = 1) = true → x = 1 := fun x h => of_decide_eq_true h
  have hplay := onesCalls_play ⟨0, Timestamp.fromSamples (2 : Nat) 48000, .immediate⟩ 1 2
  have hc : 0 < (onesCall ⟨0, Timestamp.fromSamples (2 : Nat) 48000, .immediate⟩ 1 2).output.channelCount := by
    simp [onesCall, ones, Buf.channelCount]
  have hf : 1 < (onesCall ⟨0, Timestamp.fromSamples (2 : Nat) 48000, .immediate⟩ 1 2).output.frameCount := by
    simp [onesCall, ones, Buf.frameCount]
  have claim := hall hz ho 1 1 4 2 48000 (by norm_num) (by norm_num) (by norm_num) 0 0 2 _ _ hv hplay
    (Nat.zero_le _) E E' h1 o h2 0 1 hc (by norm_num) (by norm_num) hf
  obtain ⟨hist, g1, _, g3⟩ := C80_stream hz ho 1 1 4 2 48000 (by norm_num) _ _ _ hv hplay E E' h1 o h2
  have hfr : framesIn [onesCall ⟨0, Timestamp.fromSamples (2 : Nat) 48000, .immediate⟩ 0 1] = 1 := by
    simp [framesIn, onesCall, ones, Buf.frameCount]
  obtain ⟨t, t1, t2⟩ := one_change_session (by norm_num) (by norm_num) g1 (F := 2) (by
    rw [framesIn_append, hfr]; omega)
  have real := g3 0 1 hc hf
  have ht := history_one (m := 1) (by norm_num) (by norm_num) g1 (by simp [onesCall, ones, Buf.frameCount]) hf
  rw [hfr] at real ht claim
  rw [t1] at ht
  obtain ⟨_, e2⟩ := shortRamp_times
  have e1 : Timestamp.fromSamples ((1 : Nat) : ℚ) 48000 = 89478 := by
    simp [Timestamp.fromSamples, Timestamp.fromSeconds, Timestamp.roundHalfEven, Timestamp.one]
    norm_num
  have e2' : Timestamp.fromSamples ((2 : Nat) : ℚ) 48000 = 178957 := by exact_mod_cast e2
  rw [e1] at ht
  injection ht with ht
  rw [real, if_pos ⟨by norm_num, by norm_num⟩, if_neg (by norm_num)] at claim
  rw [show 1 + 1 = 2 from rfl, t2, if_neg (by rw [e2', ht]; omega)] at claim
  have hx : (onesCall ⟨0, Timestamp.fromSamples (2 : Nat) 48000, .immediate⟩ 1 2).input.sampleOrSilence 0 1 = 1 := by
    simp [onesCall, ones, Buf.sampleOrSilence, Buf.sample?, List.replicate]
  rw [hx] at claim
  norm_num at claim

end Gain
end Rawdio
