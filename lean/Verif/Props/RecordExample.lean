import Verif.Lemmas.RecordExample
import Verif.Props.MixedNodes
import Verif.Props.RecorderNode

/-!
# C95: the example that records the system input
-/

namespace Rawdio
namespace RecordExample

open Processor Network

variable {N : Platform} {al : Int → Nat → Nat → Nat → Nat × Nat}

/-- What the example records: in both channels the sum of the channels of the system input. -/
noncomputable def inputSum {P C : Type} (channels maxChannels : Nat) (ks : List (Call ℝ P C)) (_c F : Nat) : ℝ :=
  ∑ j ∈ Finset.range channels, sessionInput true maxChannels ks j F

/-- C95: what `examples/src/bin/record.rs` has of its recording, whenever its notifications are processed: the first of
the frames of the system input, from the start of the session on and to the frame `g` in which the duration ends, all
channels of the input added up. If notifications are processed after that frame has been rendered, it has all of them and
writes them to its file. If they are not processed any more after process call `l` has started, it has nothing of what is
rendered from then on. -/
theorem C95_record_example (hz : ∀ x, N.isZero x = true → x = 0) (ho : ∀ x, N.isOne x = true → x = 1) (mf mc sr : Nat)
    (hm : 0 < mf) (hsr : 0 < sr) (hsr' : sr ≤ 2 ^ 31) (hlen : mf * sr < 2 ^ 33) (n : Nat) (hn : n ≤ 8) (duration : Int)
    (hdur : 0 ≤ duration) (a b first : Nat) (hab : a ≠ b) (passes : Nat → Nat) (prog : Nat → List Api)
    (hprog : program sr mf n duration a b first passes = .ok prog)
    (waiting ks : List (Call ℝ (WithRecorders ℝ MixedNode) (WithRecorders.Request MixedRequest))) (hks : ks ≠ [])
    (hv : ∀ k ∈ waiting ++ ks, k.Valid) (hd : Delivered prog waiting ks) (E : Processor ℝ (WithRecorders ℝ MixedNode))
    (hE : calls (WithRecorders.ops (MixedNode.ops N al)) (new sr mc mf) (waiting ++ ks) = .ok E) :
    ∃ s g, E.graph.graph.getNode a = some ⟨a, 2, 0, .recorder s⟩ ∧ AtFrame sr 0 duration g ∧ (duration = 0 → g = 0) ∧
      (∃ rest, framesBetween 2 0 (min g (framesIn ks)) (inputSum n mc ks) =
        (s.recorder.currentRecording.map Grid.allFrames).getD [] ++ rest) ∧
      ∀ l < ks.length,
        (passes l ≠ 0 → 0 < g → g < framesIn (ks.take l) →
          ∃ r, written s = .ok r ∧ r.allFrames = framesBetween 2 0 g (inputSum n mc ks)) ∧
        ((∀ l', l < l' → l' < ks.length → passes l' = 0) →
          ((s.recorder.currentRecording.map Grid.allFrames).getD []).length ≤ min g (framesIn (ks.take l))) := by
  obtain ⟨m, hmk, hid, hin, hout⟩ := NodeKind.make_ok (sr := sr) hm b (.mixer n 2) ⟨hn, by norm_num⟩
  rw [program_eq hmk] at hprog
  cases hprog
  have hab' : a ≠ m.id := by rw [hid]; exact hab
  obtain ⟨es, sig, schedule, s, x, h1, h2, hx, h3, h4, _, hrec, h5, h6⟩ := C95_recorder (MixedNode.ops N al) mf mc sr hm hsr hlen
    _ (calls_program hab') (calls_plain hab') a 2 first (by rw [calls_made]; exact List.mem_cons_self) waiting ks hks hv hd
    E hE
  rw [calls_sent hab' ks hks] at h3
  rw [calls_made, calls_links, calls_input] at h2
  rw [calls_links, calls_input] at hx
  -- the signals
  obtain ⟨d', hmx⟩ := h2 (m.within .other) (by simp)
  have hxs : ∀ c < 2, ∀ F < framesIn ks, x c F = inputSum n mc ks c F := by
    intro c hc F hF
    have hmid : (m.within (WithRecorders.other (S := ℝ))).id = m.id := rfl
    rw [hmid] at hmx
    have := mixer_sum hz ho hsr (by omega) hm hlen.le hn hmk hid hab h1 hmx c F hc hF
    rw [hx, Network.arriving]
    simp only [List.filter_cons, List.filter_nil, decide_true, if_true, List.map_cons, List.map_nil, List.foldl_cons,
      List.foldl_nil, Link.brings]
    rw [if_neg (fun h => hab' (Option.some.inj h).symm), zero_add, if_pos ⟨Nat.zero_le _, by rw [hout, Nat.zero_add]; exact hc⟩,
      Nat.zero_add, Nat.sub_zero, this, inputSum]
    refine Finset.sum_congr rfl fun j _ => ?_
    rw [Network.arriving, List.filter_eq_nil_iff.mpr (by
      intro l hl
      rw [List.mem_singleton] at hl
      subst hl
      simpa using hab')]
    simp
  have hbetween : ∀ g ≤ framesIn ks, framesBetween 2 0 g x = framesBetween 2 0 g (inputSum n mc ks) := by
    intro g hg
    rw [framesBetween, framesBetween]
    refine List.map_congr_left fun F hF => List.map_congr_left fun c hc => ?_
    rw [List.mem_range'_1] at hF
    exact hxs c (List.mem_range.mp hc) F (by omega)
  -- nothing has been taken
  have htaken : s.taken = [] := by
    refine RecorderNode.run_taken (MixedNode.ops N al) a es ?_ hrec rfl
    intro hin
    obtain ⟨j, hj⟩ := Sampler.history_events hm h1 _ hin
    rw [calls_requests] at hj
    split at hj <;> simp at hj
  have hgot : s.got = (s.recorder.currentRecording.map Grid.allFrames).getD [] := by
    rw [RecorderNode.got, htaken]
    rfl
  rw [hgot] at h5
  have hmono : ∀ l, framesIn (ks.take l) ≤ framesIn ks := by
    intro l
    conv_rhs => rw [← List.take_append_drop l ks]
    rw [framesIn, framesIn, List.map_append, List.sum_append]
    omega
  have hnot : ∀ l, (a, WithRecorders.Request.recorder .notifications) ∈
      requests (allCalls sr n duration a first m passes l) ↔ passes l ≠ 0 := by
    intro l
    rw [calls_requests]
    split <;> simp
  obtain ⟨g, hg, hg0, hrg, hg1⟩ := C95_interval sr hsr hsr' 0 0 (le_refl 0) duration hdur schedule h3 2 (framesIn ks) x
  refine ⟨s, g, h4, hg, hg0, ?_, ?_⟩
  · obtain ⟨rest, hrest⟩ := h5
    refine ⟨rest, ?_⟩
    rw [← hbetween _ (min_le_right _ _), ← hg1, hrest]
  · intro l hl
    obtain ⟨q1, q2⟩ := h6 l hl
    constructor
    · intro hp hgp hgl
      obtain ⟨_, _, q3⟩ := q1 ((hnot l).mpr hp)
      have hall := q3 fun F hF _ => by
        cases hr : isRecorded schedule F with
        | false => rfl
        | true => have := (hrg F).mp hr; omega
      have hle : g ≤ framesIn ks := hgl.le.trans (hmono l)
      rw [hg1, Nat.min_eq_left hle, hbetween g hle, hgot] at hall
      cases hc : s.recorder.currentRecording with
      | none =>
        rw [hc] at hall
        have := congrArg List.length hall
        simp [framesBetween] at this
        omega
      | some r =>
        rw [hc] at hall
        exact ⟨r, by rw [written, hc], hall⟩
    · intro hno
      have := q2 fun l' h1 h2 h3 => (hnot l').mp h3 (hno l' h1 h2)
      rw [hgot] at this
      refine this.trans ?_
      obtain ⟨g', _, _, hrg', hg1'⟩ := C95_interval sr hsr hsr' 0 0 (le_refl 0) duration hdur schedule h3 2
        (framesIn (ks.take l)) x
      have hgg : g' = g := by
        apply le_antisymm
        · by_contra hlt
          have := (hrg g).mp ((hrg' g).mpr (by omega))
          omega
        · by_contra hlt
          have := (hrg' g').mp ((hrg g').mpr (by omega))
          omega
      rw [hg1', hgg]
      simp [framesBetween]

/-- C95: all process calls of the example succeed, if notifications are processed once before each process call after
the first, the process calls are not longer than 4096 frames or than the maximum of the engine, and the engine has at
least as many channels as the input and the recorder. -/
theorem C95_record_runs (hz : ∀ x, N.isZero x = true → x = 0) (ho : ∀ x, N.isOne x = true → x = 1) (mf mc sr : Nat)
    (hm : 0 < mf) (hsr : 0 < sr) (hsr' : sr < 2 ^ 32) (hlen : mf * sr < 2 ^ 33) (n : Nat) (hn : n ≤ 8) (hnc : n ≤ mc)
    (hmc : 2 ≤ mc) (duration : Int) (a b first : Nat) (hab : a ≠ b) (passes : Nat → Nat) (hp : passes 0 = 0) :
    ∃ prog, program sr mf n duration a b first passes = .ok prog ∧
      ∀ waiting ks : List (Call ℝ (WithRecorders ℝ MixedNode) (WithRecorders.Request MixedRequest)), ks ≠ [] →
        (∀ k ∈ waiting ++ ks, k.Valid) → Delivered prog waiting ks →
        (∀ i, 0 < i → i < ks.length → passes i = 1) →
        (∀ k ∈ ks, 0 < k.output.frameCount ∧ k.output.frameCount ≤ mf ∧ k.output.frameCount ≤ 4096) →
        ∃ E, calls (WithRecorders.ops (MixedNode.ops N al)) (new sr mc mf) (waiting ++ ks) = .ok E := by
  have hu : (NodeKind.mixer n 2).Usable := ⟨hn, by norm_num⟩
  obtain ⟨m, hmk, hid, hin, hout⟩ := NodeKind.make_ok (sr := sr) hm b (.mixer n 2) hu
  have hab' : a ≠ m.id := by rw [hid]; exact hab
  refine ⟨_, program_eq hmk, ?_⟩
  intro waiting ks hks hv hd hpass hl
  refine C95_keeps_up (MixedNode.ops N al) mf mc sr hm hsr hsr'.le hlen _ _
    (NodeKind.mixed_healthy (al := al) hz ho hsr hlen.le [(b, .mixer n 2)]) _ (calls_program hab')
    (calls_allowed mc hab' hmc (by rw [hin]; exact hnc) (by rw [hout]; exact hmc)) waiting ks ?_ hks hv hd hl
  intro d hdm
  rw [calls_made] at hdm
  simp only [List.mem_cons, List.not_mem_nil, or_false] at hdm
  rcases hdm with rfl | rfl
  · refine .inr ⟨2, first, rfl, calls_attended hab' ks hp hpass, ?_⟩
    intro i r hr
    rw [calls_requests] at hr
    rw [List.mem_append] at hr
    rcases hr with hr | hr
    · split at hr
      · simp only [List.mem_append, List.mem_cons, List.mem_map, List.not_mem_nil, or_false] at hr
        rcases hr with (hr | hr) | ⟨l, _, hr⟩
        · cases hr; exact ⟨_, rfl⟩
        · cases hr; exact ⟨_, rfl⟩
        · exact absurd (congrArg Prod.fst hr).symm hab'
      · cases hr
    · have := (List.mem_replicate.mp hr).2
      cases this
      exact ⟨_, rfl⟩
  · refine .inl ⟨m, rfl, ⟨.mixer n 2, by rw [hid]; simp, NodeKind.new_sound hm hsr hsr' hu trivial hmk⟩, ?_⟩
    intro i r hr
    rw [calls_requests, List.mem_append] at hr
    have hmid : (m.within (WithRecorders.other (S := ℝ))).id = m.id := rfl
    rw [hmid] at hr
    rcases hr with hr | hr
    · split at hr
      · simp only [List.mem_append, List.mem_cons, List.mem_map, List.not_mem_nil, or_false] at hr
        rcases hr with (hr | hr) | ⟨l, hl', hr⟩
        · exact absurd (congrArg Prod.fst hr).symm hab'
        · exact absurd (congrArg Prod.fst hr).symm hab'
        · cases hr
          refine ⟨_, rfl, ?_⟩
          intro k hk
          rw [List.mem_singleton] at hk
          injection hk with _ hk
          subst hk
          obtain ⟨o, ho', hlo⟩ := List.mem_flatMap.mp hl'
          obtain ⟨j, hj, rfl⟩ := List.mem_map.mp hlo
          exact ⟨List.mem_range.mp hj, List.mem_range.mp ho'⟩
      · cases hr
    · exact absurd (congrArg Prod.fst (List.mem_replicate.mp hr).2).symm hab'

/-- A process call of 8 frames with two channels. -/
def eightFrames (as : List Api) : Call ℝ (WithRecorders ℝ MixedNode) (WithRecorders.Request MixedRequest) :=
  ⟨as.map fun c => (c.command, .plain), .owned (List.replicate 16 1) 2 8 44100, .owned (List.replicate 16 0) 2 8 44100,
    fun _ => Env.plain⟩

theorem eightFrames_valid (as : List Api) : (eightFrames as).Valid := by
  refine ⟨?_, ?_, trivial, le_refl _, ?_⟩
  · simp [eightFrames, Buf.WF]
  · simp [eightFrames, Buf.WF]
  · intro x hx
    obtain ⟨y, _, rfl⟩ := List.mem_map.mp hx
    exact command_api y

/-- Calls for as many steps of a program. -/
theorem eightFrames_session (prog : Nat → List Api) (l : Nat) :
    (∀ k ∈ [eightFrames []] ++ (List.range (l + 1)).map (fun i => eightFrames (prog i)), k.Valid) ∧
      Delivered prog [eightFrames []] ((List.range (l + 1)).map fun i => eightFrames (prog i)) := by
  constructor
  · intro k hk
    rw [List.mem_append, List.mem_singleton, List.mem_map] at hk
    rcases hk with rfl | ⟨i, _, rfl⟩ <;> exact eightFrames_valid _
  · refine ⟨?_, ⟨_, rfl⟩, ?_, ?_⟩
    · simp [history, eightFrames]
    · intro k hk
      simp only [List.getElem?_map, Option.map_eq_some_iff] at hk
      obtain ⟨i, hi, rfl⟩ := hk
      rw [List.getElem?_range (by omega)] at hi
      cases hi
      simp [history, eightFrames, Function.comp_def]
    · intro i k hi hk
      simp only [List.getElem?_map, Option.map_eq_some_iff] at hk
      obtain ⟨j, hj, rfl⟩ := hk
      obtain ⟨_, rfl⟩ := List.getElem?_eq_some_iff.mp hj
      simp [eightFrames, Function.comp_def]

theorem eightFrames_total (prog : Nat → List Api) (l : Nat) :
    framesIn ((List.range l).map fun i => eightFrames (prog i)) = 8 * l := by
  rw [framesIn, List.map_map]
  have : (fun k : Call ℝ (WithRecorders ℝ MixedNode) (WithRecorders.Request MixedRequest) => k.output.frameCount) ∘
      (fun i => eightFrames (prog i)) = fun _ => 8 := rfl
  simp [this, Nat.mul_comm]

/-- The frame of the duration in the witness and in the example. -/
theorem twelve {g : Nat} (h : AtFrame 44100 0 1200000 g) : g = 12 := by
  obtain ⟨_, h2, h3⟩ := h
  have a1 : (11 : ℚ) < g := by
    rw [div_mul_eq_mul_div, ← sub_lt_iff_lt_add, lt_div_iff₀ (by norm_num)] at h3
    norm_num at h3
    linarith
  have a2 : (g : ℚ) < 13 := by
    rcases h2 with h2 | h2
    · subst h2; norm_num
    · rw [div_mul_eq_mul_div, div_le_iff₀ (by norm_num)] at h2
      norm_num at h2
      linarith
  have b1 : 11 < g := by exact_mod_cast a1
  have b2 : g < 13 := by exact_mod_cast a2
  omega

/-- C95: the example does not always write what it should: if the process call in which the duration ends comes after the
last pass of the loop and before its check of the time, the end of the recording is missing. Here the duration ends in
frame 12, the pass comes after 8 frames, and 16 frames have been rendered at the end. -/
theorem C95_record_example_violated : ∃ (passes : Nat → Nat) (prog : Nat → List Api)
    (waiting ks : List (Call ℝ (WithRecorders ℝ MixedNode) (WithRecorders.Request MixedRequest)))
    (E : Processor ℝ (WithRecorders ℝ MixedNode)) (s : RecorderNode ℝ) (g : Nat),
    program 44100 16 2 1200000 1 2 0 passes = .ok prog ∧ (∀ k ∈ waiting ++ ks, k.Valid) ∧ Delivered prog waiting ks ∧
    calls (WithRecorders.ops (MixedNode.ops Fx.plain fun _ _ _ _ => (0, 0))) (new 44100 2 16) (waiting ++ ks) = .ok E ∧
    (∃ l, l + 1 = ks.length ∧ passes l = 1) ∧ ((1200000 : Int) : ℚ) ≤ (framesIn ks : ℚ) / 44100 * 2 ^ 32 ∧
    AtFrame 44100 0 1200000 g ∧ E.graph.graph.getNode 1 = some ⟨1, 2, 0, .recorder s⟩ ∧
    ∀ r, written s = .ok r → r.allFrames ≠ framesBetween 2 0 g (inputSum 2 2 ks) := by
  obtain ⟨prog, hprog, hrun⟩ := C95_record_runs (N := Fx.plain) (al := fun _ _ _ _ => (0, 0)) (by simp [Fx.plain])
    (by simp [Fx.plain]) 16 2 44100 (by norm_num) (by norm_num) (by norm_num) (by norm_num) 2 (by norm_num) (by norm_num)
    (by norm_num) 1200000 1 2 0 (by decide) (fun i => if i = 0 then 0 else 1) rfl
  obtain ⟨v, d⟩ := eightFrames_session prog 1
  obtain ⟨E, hE⟩ := hrun _ _ (by simp) v d (by intro i h _; simp; omega) (by
    intro k hk
    obtain ⟨i, _, rfl⟩ := List.mem_map.mp hk
    show 0 < 8 ∧ 8 ≤ 16 ∧ 8 ≤ 4096
    decide)
  obtain ⟨s, g, h1, h2, _, _, h4⟩ := C95_record_example (N := Fx.plain) (al := fun _ _ _ _ => (0, 0)) (by simp [Fx.plain])
    (by simp [Fx.plain]) 16 2 44100 (by norm_num) (by norm_num) (by norm_num) (by norm_num) 2 (by norm_num) 1200000
    (by norm_num) 1 2 0 (by decide) _ prog hprog _ _ (by simp) v d E hE
  have hg := twelve h2
  refine ⟨_, prog, _, _, E, s, g, hprog, v, d, hE, ⟨1, rfl, rfl⟩, ?_, h2, h1, ?_⟩
  · rw [eightFrames_total]
    norm_num
  · intro r hr he
    have hle := (h4 1 (by simp)).2 (by
      intro l' h1 h2
      simp at h2
      omega)
    have hlen := congrArg List.length he
    have htake : framesIn (((List.range (1 + 1)).map fun i => eightFrames (prog i)).take 1) = 8 := by
      rw [← List.map_take, List.take_range, eightFrames_total]
      rfl
    rw [htake] at hle
    unfold written at hr
    cases hc : s.recorder.currentRecording with
    | none => rw [hc] at hr; cases hr
    | some q =>
      rw [hc] at hr hle
      cases hr
      simp [framesBetween] at hlen hle
      omega

/-- Three process calls, with passes before the second and the third: all hypotheses hold, and the recording is complete. -/
example : ∃ (prog : Nat → List Api) (E : Processor ℝ (WithRecorders ℝ MixedNode)) (s : RecorderNode ℝ) (r : Grid ℝ),
    program 44100 16 2 1200000 1 2 0 (fun i => if i = 0 then 0 else 1) = .ok prog ∧
    (∀ k ∈ [eightFrames []] ++ (List.range 3).map (fun i => eightFrames (prog i)), k.Valid) ∧
    Delivered prog [eightFrames []] ((List.range 3).map fun i => eightFrames (prog i)) ∧
    calls (WithRecorders.ops (MixedNode.ops Fx.plain fun _ _ _ _ => (0, 0))) (new 44100 2 16)
      ([eightFrames []] ++ (List.range 3).map (fun i => eightFrames (prog i))) = .ok E ∧
    E.graph.graph.getNode 1 = some ⟨1, 2, 0, .recorder s⟩ ∧ written s = .ok r ∧ r.allFrames.length = 12 := by
  obtain ⟨prog, hprog, hrun⟩ := C95_record_runs (N := Fx.plain) (al := fun _ _ _ _ => (0, 0)) (by simp [Fx.plain])
    (by simp [Fx.plain]) 16 2 44100 (by norm_num) (by norm_num) (by norm_num) (by norm_num) 2 (by norm_num) (by norm_num)
    (by norm_num) 1200000 1 2 0 (by decide) (fun i => if i = 0 then 0 else 1) rfl
  obtain ⟨v, d⟩ := eightFrames_session prog 2
  obtain ⟨E, hE⟩ := hrun _ _ (by simp) v d (by intro i h _; simp; omega) (by
    intro k hk
    obtain ⟨i, _, rfl⟩ := List.mem_map.mp hk
    show 0 < 8 ∧ 8 ≤ 16 ∧ 8 ≤ 4096
    decide)
  obtain ⟨s, g, h1, h2, _, _, h4⟩ := C95_record_example (N := Fx.plain) (al := fun _ _ _ _ => (0, 0)) (by simp [Fx.plain])
    (by simp [Fx.plain]) 16 2 44100 (by norm_num) (by norm_num) (by norm_num) (by norm_num) 2 (by norm_num) 1200000
    (by norm_num) 1 2 0 (by decide) _ prog hprog _ _ (by simp) v d E hE
  have hg := twelve h2
  have htake : framesIn (((List.range (2 + 1)).map fun i => eightFrames (prog i)).take 2) = 16 := by
    rw [← List.map_take, List.take_range, eightFrames_total]
    rfl
  obtain ⟨r, hr, hr'⟩ := (h4 2 (by simp)).1 (by simp) (by omega) (by rw [htake]; omega)
  refine ⟨prog, E, s, r, hprog, v, d, hE, h1, hr, ?_⟩
  rw [hr', hg]
  simp [framesBetween]

/-- The hypotheses of `C86_succeeds`, `C95_keeps_up` and `C95_recorder` hold for the program of the example in a session of
three calls: it is a program, plain and careful, one of its nodes is a recorder that is attended to, the other is a mixer,
all nodes can be run over all events, and the process calls succeed. -/
example : ∃ (m : Dsp MixedNode) (E : Processor ℝ (WithRecorders ℝ MixedNode)),
    let prog := allCalls 44100 2 1200000 1 0 m (fun i => if i = 0 then 0 else 1)
    let ks := (List.range 3).map fun i => eightFrames (prog i)
    Program prog ∧ Plain (made (prog 0)) (links (prog 0)) (input (prog 0)) ∧
    (∀ k, Allowed (fun h c => h.Typed c ∧ h.Careful 2 c) Holding.empty ((List.range k).flatMap prog)) ∧
    (RecorderNode.node 1 44100 2 0).within .recorder ∈ made (prog 0) ∧
    RecorderAttended (fun i => requests (prog i)) 1 ks ∧
    (∀ k ∈ [eightFrames []] ++ ks, k.Valid) ∧ Delivered prog [eightFrames []] ks ∧
    calls (WithRecorders.ops (MixedNode.ops Fx.plain fun _ _ _ _ => (0, 0))) (new 44100 2 16) ([eightFrames []] ++ ks) =
      .ok E ∧
    (∀ es, ChainHistory 16 44100 (fun i => requests (prog i)) ks es → ∀ x, ∃ r,
      chainRun (WithRecorders.ops (MixedNode.ops Fx.plain fun _ _ _ _ => (0, 0))) 44100
        [⟨1, 2, 0, .recorder ⟨2, Recorder.new 44100 2 0, []⟩⟩] es x = .ok r) := by
  obtain ⟨m, hmk, hid, hin, hout⟩ := NodeKind.make_ok (sr := 44100) (mf := 16) (by norm_num) 2 (.mixer 2 2)
    ⟨by norm_num, by norm_num⟩
  have hab' : 1 ≠ m.id := by rw [hid]; decide
  obtain ⟨prog, hprog, hrun⟩ := C95_record_runs (N := Fx.plain) (al := fun _ _ _ _ => (0, 0)) (by simp [Fx.plain])
    (by simp [Fx.plain]) 16 2 44100 (by norm_num) (by norm_num) (by norm_num) (by norm_num) 2 (by norm_num) (by norm_num)
    (by norm_num) 1200000 1 2 0 (by decide) (fun i => if i = 0 then 0 else 1) rfl
  rw [program_eq hmk] at hprog
  cases hprog
  obtain ⟨v, d⟩ := eightFrames_session (allCalls 44100 2 1200000 1 0 m (fun i => if i = 0 then 0 else 1)) 2
  have hl : ∀ k ∈ (List.range 3).map (fun i => eightFrames
      (allCalls 44100 2 1200000 1 0 m (fun i => if i = 0 then 0 else 1) i)),
      0 < k.output.frameCount ∧ k.output.frameCount ≤ 16 ∧ k.output.frameCount ≤ 4096 := by
    intro k hk
    obtain ⟨i, _, rfl⟩ := List.mem_map.mp hk
    show 0 < 8 ∧ 8 ≤ 16 ∧ 8 ≤ 4096
    decide
  obtain ⟨E, hE⟩ := hrun _ _ (by simp) v d (by intro i h _; simp; omega) hl
  have hatt : RecorderAttended (fun i => requests (allCalls 44100 2 1200000 1 0 m (fun i => if i = 0 then 0 else 1) i)) 1
      ((List.range 3).map fun i => eightFrames (allCalls 44100 2 1200000 1 0 m (fun i => if i = 0 then 0 else 1) i)) :=
    calls_attended hab' _ rfl (by intro i h _; simp; omega)
  refine ⟨m, E, calls_program hab', calls_plain hab', ?_, ?_, hatt, v, d, hE, ?_⟩
  · exact fun k => calls_allowed 2 hab' (le_refl 2) (by rw [hin]; exact le_refl 2) (by rw [hout]; exact le_refl 2) k
  · rw [calls_made]
    exact List.mem_cons_self
  · intro es hes x
    refine RecorderNode.keeps_up (by norm_num) (by norm_num) (by norm_num) (by norm_num) _ 1 0 hes x hatt ?_ hl
    intro i c hc
    rw [calls_requests] at hc
    split at hc <;> simp at hc
    obtain ⟨l, _, h, _⟩ := hc
    exact hab' h.symm

end RecordExample
end Rawdio
