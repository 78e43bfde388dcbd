import Verif.Lemmas.MeterSignal
import Verif.Lemmas.ProgramSteps
import Verif.Lemmas.RecorderKeepsUp
import Verif.Model.MeterExample
import Verif.Props.FileExamples
import Verif.Spec.MeterExample

/-! Helper lemmas about the example with a meter. -/

namespace Rawdio

open Processor Network

/-! ## Counting reports -/

theorem callBlocks_eq (full a n : Nat) : blocksFrom full a [n] = callBlocks full a n := by
  simp [blocksFrom]

/-- There are no more reports than notifications are due. -/
theorem times_count {I : ℚ} (hI : 0 < I) {full : Nat} (hf : 0 < full) (ns : List Nat) : ∀ a : Nat,
    ((reportTimes I (blocksFrom full a ns)).length : ℤ) ≤ ⌊((a + ns.sum : Nat) : ℚ) / I⌋ - ⌊(a : ℚ) / I⌋ := by
  classical
  have key : ∀ a n : Nat, ((reportTimes I [(a, n)]).length : ℤ) ≤ ⌊((a + n : Nat) : ℚ) / I⌋ - ⌊(a : ℚ) / I⌋ := by
    intro a n
    have hle : ⌊(a : ℚ) / I⌋ ≤ ⌊((a + n : Nat) : ℚ) / I⌋ :=
      Int.floor_le_floor (div_le_div_of_nonneg_right (by exact_mod_cast Nat.le_add_right a n) hI.le)
    rw [times_block]
    split
    · rename_i h
      rw [due_iff hI] at h
      simp only [List.length_singleton]
      push_cast at h ⊢
      omega
    · simp only [List.length_nil]
      push_cast at hle ⊢
      omega
  have full_blocks : ∀ k a : Nat, ((reportTimes I ((List.range k).map fun j => (a + j * full, full))).length : ℤ) ≤
      ⌊((a + k * full : Nat) : ℚ) / I⌋ - ⌊(a : ℚ) / I⌋ := by
    intro k
    induction k with
    | zero => intro a; simp [reportTimes]
    | succ k ih =>
      intro a
      rw [List.range_succ, List.map_append, times_append, List.length_append]
      have h1 := ih a
      have h2 := key (a + k * full) full
      rw [show a + (k + 1) * full = a + k * full + full by ring]
      simp only [List.map_cons, List.map_nil]
      push_cast at h1 h2 ⊢
      omega
  induction ns with
  | nil => intro a; simp [blocksFrom, reportTimes]
  | cons n ns ih =>
    intro a
    rw [blocksFrom, times_append, List.length_append]
    have h1 := ih (a + n)
    have h2 : ((reportTimes I (callBlocks full a n)).length : ℤ) ≤ ⌊((a + n : Nat) : ℚ) / I⌋ - ⌊(a : ℚ) / I⌋ := by
      rw [callBlocks, times_append, List.length_append]
      have h3 := full_blocks (n / full) a
      have hn := Nat.div_add_mod n full
      rw [Nat.mul_comm] at hn
      split
      · rename_i h0
        rw [h0, Nat.add_zero] at hn
        rw [hn] at h3
        simpa [reportTimes] using h3
      · have h4 := key (a + n / full * full) (n % full)
        rw [show a + n / full * full + n % full = a + n by omega] at h4
        push_cast at h3 h4 ⊢
        omega
    rw [List.sum_cons, ← Nat.add_assoc]
    push_cast at h1 h2 ⊢
    omega

namespace MeterExample

variable {length : Int} {n : Nat} {s g : Dsp MixedNode} {m : Dsp MeterNode} {passes : Nat → Nat}

/-- The calls of the example, in one shape. -/
noncomputable def allCalls (length : Int) (n : Nat) (s g : Dsp MixedNode) (m : Dsp MeterNode) (passes : Nat → Nat)
    (i : Nat) : List Api :=
  (if i = 0 then setUp length n s g m else []) ++ (List.replicate (passes i) (pass m)).flatten

theorem setUp_eq : setUp length n s g m =
    [.create s.id s.inputCount s.outputCount (.other s.state), .create g.id g.inputCount g.outputCount (.other g.state),
      .change ⟨g.id, g.outputCount⟩ (.other (RowExamples.set "gain" 1 Timestamp.zero)),
      .change ⟨g.id, g.outputCount⟩ (.other (RowExamples.ramp "gain" 0 Timestamp.zero length)),
      .create m.id m.inputCount m.outputCount (.meter m.state), .connectTo ⟨s.id, s.outputCount⟩ ⟨g.id, g.outputCount⟩,
      .connectTo ⟨g.id, g.outputCount⟩ ⟨m.id, m.outputCount⟩, .connectToOutput ⟨g.id, g.outputCount⟩,
      .change ⟨s.id, s.outputCount⟩ (.other (.sampler (.startNow n))), .start] := by
  simp [setUp, create, fadeOut, connectNodes]

theorem passes_made (k : Nat) : made (List.replicate k (pass m)).flatten = [] := by
  induction k with
  | zero => rfl
  | succ k ih => rw [List.replicate_succ, List.flatten_cons, made_append, ih]; rfl

theorem passes_links (k : Nat) : links (List.replicate k (pass m)).flatten = [] := by
  induction k with
  | zero => rfl
  | succ k ih => rw [List.replicate_succ, List.flatten_cons, links_append, ih]; rfl

theorem passes_requests (k : Nat) : requests (List.replicate k (pass m)).flatten =
    (List.replicate k [(m.id, .meter .poll), (m.id, .meter .take)]).flatten := by
  induction k with
  | zero => rfl
  | succ k ih => rw [List.replicate_succ, List.flatten_cons, requests_append, ih]; rfl

theorem mem_passes {k : Nat} {c : Api} (h : c ∈ (List.replicate k (pass m)).flatten) :
    ∃ r, c = .change ⟨m.id, m.outputCount⟩ (.meter r) := by
  obtain ⟨l, hl, hc⟩ := List.mem_flatten.mp h
  obtain rfl := (List.mem_replicate.mp hl).2
  simp only [pass, List.mem_cons, List.not_mem_nil, or_false] at hc
  rcases hc with rfl | rfl <;> exact ⟨_, rfl⟩

theorem calls_made : made (allCalls length n s g m passes 0) = [s.within .other, g.within .other, m.within .meter] := by
  rw [allCalls, if_pos rfl, setUp_eq, made_append, passes_made]
  rfl

theorem calls_links : links (allCalls length n s g m passes 0) =
    [⟨s.id, g.id, 0, 0, s.outputCount⟩, ⟨g.id, m.id, 0, 0, g.outputCount⟩] := by
  rw [allCalls, if_pos rfl, setUp_eq, links_append, passes_links]
  rfl

theorem calls_input : input (allCalls length n s g m passes 0) = none := by
  rw [input, List.findSome?_eq_none_iff]
  intro c hc
  rw [List.mem_reverse, allCalls, if_pos rfl, setUp_eq, List.mem_append] at hc
  rcases hc with hc | hc
  · simp only [List.mem_cons, List.not_mem_nil, or_false] at hc
    rcases hc with rfl | rfl | rfl | rfl | rfl | rfl | rfl | rfl | rfl | rfl <;> rfl
  · obtain ⟨r, rfl⟩ := mem_passes hc
    rfl

theorem calls_output : output (allCalls length n s g m passes 0) = some g.id := by
  rw [output, allCalls, if_pos rfl, setUp_eq, List.reverse_append, List.findSome?_append,
    List.findSome?_eq_none_iff.mpr (by
      intro x hx
      rw [List.mem_reverse] at hx
      obtain ⟨_, rfl⟩ := mem_passes hx
      rfl)]
  rfl

theorem calls_requests (i : Nat) : requests (allCalls length n s g m passes i) =
    (if i = 0 then [(g.id, .other (RowExamples.set "gain" 1 Timestamp.zero)),
      (g.id, .other (RowExamples.ramp "gain" 0 Timestamp.zero length)), (s.id, .other (.sampler (.startNow n)))] else []) ++
    (List.replicate (passes i) [(m.id, .meter .poll), (m.id, .meter .take)]).flatten := by
  rw [allCalls, requests_append, passes_requests]
  congr 1
  split
  · rw [setUp_eq]
    rfl
  · rfl

theorem calls_range (k : Nat) : (List.range k).flatMap (allCalls length n s g m passes) =
    if k = 0 then [] else setUp length n s g m ++ (List.range k).flatMap fun i =>
      (List.replicate (passes i) (pass m)).flatten := by
  cases k with
  | zero => rfl
  | succ k =>
    rw [if_neg (by omega), List.range_succ_eq_map, List.flatMap_cons, List.flatMap_cons, allCalls, if_pos rfl,
      List.append_assoc, List.flatMap_map, List.flatMap_map]
    rfl

theorem calls_allowed (mc : Nat) (hsg : s.id ≠ g.id) (hsm : s.id ≠ m.id) (hgm : g.id ≠ m.id)
    (hch : (s.inputCount ≤ mc ∧ s.outputCount ≤ mc) ∧ (g.inputCount ≤ mc ∧ g.outputCount ≤ mc) ∧
      m.inputCount ≤ mc ∧ m.outputCount ≤ mc) (k : Nat) :
    Allowed (fun h c => h.Typed c ∧ h.Careful mc c) Holding.empty
      ((List.range k).flatMap (allCalls length n s g m passes)) := by
  rw [calls_range]
  split
  · trivial
  obtain ⟨h1, h2, h3⟩ := hch
  set H : Holding := ⟨[⟨s.id, s.inputCount, s.outputCount⟩, ⟨g.id, g.inputCount, g.outputCount⟩,
    ⟨m.id, m.inputCount, m.outputCount⟩], []⟩ with hH
  have hs : ∀ ls, Holding.Holds ⟨H.nodes, ls⟩ ⟨s.id, s.outputCount⟩ := fun ls => ⟨_, List.mem_cons_self, rfl, rfl⟩
  have hg : ∀ ls, Holding.Holds ⟨H.nodes, ls⟩ ⟨g.id, g.outputCount⟩ := fun ls =>
    ⟨_, List.mem_cons_of_mem _ List.mem_cons_self, rfl, rfl⟩
  have hm : ∀ ls, Holding.Holds ⟨H.nodes, ls⟩ ⟨m.id, m.outputCount⟩ := fun ls =>
    ⟨_, List.mem_cons_of_mem _ (List.mem_cons_of_mem _ List.mem_cons_self), rfl, rfl⟩
  have hg2 : Holding.Holds ⟨[⟨s.id, s.inputCount, s.outputCount⟩, ⟨g.id, g.inputCount, g.outputCount⟩], []⟩
      ⟨g.id, g.outputCount⟩ := ⟨_, List.mem_cons_of_mem _ List.mem_cons_self, rfl, rfl⟩
  have c1 := ProgramSteps.connects (P := WithMeters MixedNode) (C := WithMeters.Request MixedRequest)
    (fun i => if i = s.id then 0 else if i = g.id then 1 else 2)
    [(⟨s.id, s.outputCount⟩, ⟨g.id, g.outputCount⟩), (⟨g.id, g.outputCount⟩, ⟨m.id, m.outputCount⟩)] H mc
    (by simp [hH]) (by
      intro p hp
      simp only [List.mem_cons, List.not_mem_nil, or_false] at hp
      rcases hp with rfl | rfl
      · simp [hsg.symm]
      · simp [hsg.symm, hsm.symm, hgm.symm]) (by
      intro p hp
      simp only [List.mem_cons, List.not_mem_nil, or_false] at hp
      rcases hp with rfl | rfl
      · exact ⟨hs _, hg _⟩
      · exact ⟨hg _, hm _⟩) (by simp [hsg]) (by simp [hH, Holding.Joined])
  set L : List Link := [⟨s.id, g.id, 0, 0, s.outputCount⟩, ⟨g.id, m.id, 0, 0, g.outputCount⟩] with hL
  have c2 := ProgramSteps.changes (P := WithMeters MixedNode) (C := WithMeters.Request MixedRequest)
    ((List.range k).flatMap fun i => (List.replicate (passes i) (pass m)).flatten) ⟨H.nodes, L⟩ (by
      intro c hc
      obtain ⟨i, _, hi⟩ := List.mem_flatMap.mp hc
      obtain ⟨r, rfl⟩ := mem_passes hi
      exact ⟨_, _, rfl, hm _⟩) mc
  rw [setUp_eq, allowed_append]
  refine ⟨⟨⟨by simp [Holding.Typed, Holding.empty], h1.1, h1.2, by simp [Holding.empty]⟩,
    ⟨?_, h2.1, h2.2, by simp [Holding.after, Holding.empty]⟩, ⟨hg2, trivial⟩, ⟨hg2, trivial⟩,
    ⟨?_, h3.1, h3.2, by simp [Holding.after, Holding.empty]⟩, c1.1.1, c1.1.2.1, ⟨hg L, trivial⟩, ⟨hs L, trivial⟩,
    ⟨trivial, trivial⟩, trivial⟩, c2.1⟩
  · intro x hx
    simp [Holding.after, Holding.empty] at hx
    subst hx
    exact hsg
  · intro x hx
    simp [Holding.after, Holding.empty] at hx
    rcases hx with rfl | rfl
    · exact hsm
    · exact hgm

theorem calls_program (hsg : s.id ≠ g.id) (hsm : s.id ≠ m.id) (hgm : g.id ≠ m.id) :
    Program (allCalls length n s g m passes) := by
  refine ⟨?_, ?_, ?_, ?_⟩
  · intro c hc
    rw [allCalls, if_pos rfl, setUp_eq, List.mem_append] at hc
    rcases hc with hc | hc
    · simp only [List.mem_cons, List.not_mem_nil, or_false] at hc
      rcases hc with rfl | rfl | rfl | rfl | rfl | rfl | rfl | rfl | rfl | rfl <;> trivial
    · obtain ⟨r, rfl⟩ := mem_passes hc
      trivial
  · have := calls_allowed (length := length) (n := n) (passes := passes)
      (s.inputCount + s.outputCount + g.inputCount + g.outputCount + m.inputCount + m.outputCount) hsg hsm hgm
      (by refine ⟨⟨?_, ?_⟩, ⟨?_, ?_⟩, ?_, ?_⟩ <;> omega) 1
    simp only [List.range_one, List.flatMap_cons, List.flatMap_nil, List.append_nil] at this
    exact ProgramSteps.allowed_left _ _ this
  · rw [allCalls, if_pos rfl, setUp_eq]
    simp
  · intro i hi c hc
    rw [allCalls, if_neg (by omega), List.nil_append] at hc
    obtain ⟨r, rfl⟩ := mem_passes hc
    trivial

theorem calls_plain (hsg : s.id ≠ g.id) (hsm : s.id ≠ m.id) (hgm : g.id ≠ m.id) :
    Plain (made (allCalls length n s g m passes 0)) (links (allCalls length n s g m passes 0))
      (input (allCalls length n s g m passes 0)) := by
  rw [calls_made, calls_links, calls_input]
  refine ⟨?_, ?_⟩
  · simp
  · intro l hl _ _ _ d hd he
    simp only [List.mem_cons, List.not_mem_nil, or_false] at hl hd
    rcases hl with rfl | rfl <;> rcases hd with rfl | rfl | rfl
    · exact le_refl _
    · exact absurd he.symm hsg
    · exact absurd he.symm hsm
    · exact absurd he hsg
    · exact le_refl _
    · exact absurd he.symm hgm

theorem seen_sampler (hsg : s.id ≠ g.id) (i : Nat) :
    seenBy s.id (WithMeters.Request.other? (C := MixedRequest)) (requests (allCalls length n s g m passes i)) =
      if i = 0 then [(s.id, .sampler (.startNow n))] else [] := by
  have hno : seenBy s.id (WithMeters.Request.other? (C := MixedRequest))
      (List.replicate (passes i) [(m.id, .meter .poll), (m.id, .meter .take)]).flatten = [] := by
    rw [seenBy, List.filterMap_eq_nil_iff]
    intro q hq
    obtain ⟨l, hl, hc⟩ := List.mem_flatten.mp hq
    obtain rfl := (List.mem_replicate.mp hl).2
    simp only [List.mem_cons, List.not_mem_nil, or_false] at hc
    rcases hc with rfl | rfl <;> simp [WithMeters.Request.other?]
  rw [calls_requests]
  unfold seenBy at hno ⊢
  rw [List.filterMap_append, hno, List.append_nil]
  split
  · simp [hsg.symm, WithMeters.Request.other?]
  · rfl

theorem seen_gain (hsg : s.id ≠ g.id) (i : Nat) :
    seenBy g.id (WithMeters.Request.other? (C := MixedRequest)) (requests (allCalls length n s g m passes i)) =
      if i = 0 then [(g.id, RowExamples.set "gain" 1 Timestamp.zero),
        (g.id, RowExamples.ramp "gain" 0 Timestamp.zero length)] else [] := by
  have hno : seenBy g.id (WithMeters.Request.other? (C := MixedRequest))
      (List.replicate (passes i) [(m.id, .meter .poll), (m.id, .meter .take)]).flatten = [] := by
    rw [seenBy, List.filterMap_eq_nil_iff]
    intro q hq
    obtain ⟨l, hl, hc⟩ := List.mem_flatten.mp hq
    obtain rfl := (List.mem_replicate.mp hl).2
    simp only [List.mem_cons, List.not_mem_nil, or_false] at hc
    rcases hc with rfl | rfl <;> simp [WithMeters.Request.other?]
  rw [calls_requests]
  unfold seenBy at hno ⊢
  rw [List.filterMap_append, hno, List.append_nil]
  split
  · simp [hsg, WithMeters.Request.other?]
  · rfl

/-! ## The level -/

/-- The length of a file as a timestamp. -/
theorem length_near (frames sr : Nat) (hsr : 0 < sr) :
    |(fromDuration (RowExamples.duration frames sr) : ℝ) - frames * (2 ^ 32 / sr)| ≤ 3 := by
  have h1 : |((RowExamples.duration frames sr : Nat) : ℚ) - (frames : ℚ) / sr * 10 ^ 9| ≤ 1 / 2 := by
    rw [RowExamples.duration, abs_le]
    have hp : (0 : ℚ) ≤ (frames : ℚ) / sr * 10 ^ 9 + 1 / 2 := by positivity
    have a := Nat.floor_le hp
    have b := Nat.lt_floor_add_one ((frames : ℚ) / sr * 10 ^ 9 + 1 / 2)
    constructor <;> linarith
  have h2 := Timestamp.fromSeconds_error ((RowExamples.duration frames sr : Nat) / 10 ^ 9 : ℚ)
  have h0 : Timestamp.one = 2 ^ 32 := by norm_num [Timestamp.one]
  rw [h0] at h2
  push_cast at h2
  have h3 : |(fromDuration (RowExamples.duration frames sr) : ℚ) - frames * (2 ^ 32 / sr)| ≤ 3 := by
    rw [abs_le] at h1 h2 ⊢
    have hsr' : (0 : ℚ) < sr := by exact_mod_cast hsr
    have e : (frames : ℚ) * (2 ^ 32 / sr) = (frames : ℚ) / sr * 10 ^ 9 * (2 ^ 32 / 10 ^ 9) := by
      field_simp
    rw [e, fromDuration]
    constructor
    · linarith [h2.1, h1.1]
    · linarith [h2.2, h1.2]
  have := (Rat.cast_le (K := ℝ)).mpr h3
  push_cast at this
  exact this

theorem min_near (a b : ℝ) : |min a 1 - min b 1| ≤ |a - b| := by
  have := le_abs_self (a - b)
  have := neg_abs_le (a - b)
  rw [abs_le]
  rcases le_total a 1 with h1 | h1 <;> rcases le_total b 1 with h2 | h2 <;> simp only [min_eq_left, min_eq_right, h1, h2] <;>
    constructor <;> linarith

/-- The level of the gain. -/
theorem gain_near {P : Type} (b : Id) (frames mf sr : Nat) (hfr : 100 ≤ frames) (hsr : 0 < sr) (hle : sr ≤ 2 ^ 28)
    (changes : Nat → List (Id × MixedRequest)) (ks : List (Call ℝ P MixedRequest)) (es : List (ChainEvent MixedRequest))
    (h : ChainHistory mf sr changes ks es)
    (hown : ∀ j, (changes j).filterMap (fun x => if x.1 = b then x.2.parameter?.filter (fun r => r.name = "gain") else none) =
      if j = 0 then [ParameterRequest.change "gain" ⟨1, Timestamp.zero, .immediate⟩,
        .change "gain" ⟨0, fromDuration (RowExamples.duration frames sr), .linear Timestamp.zero⟩] else [])
    (F : ℕ) (hF : F < framesIn ks) (hFf : F < frames) :
    |(FxKind.gain 2).track sr (es.filterMap (ChainEvent.seen b MixedRequest.parameter?)) b "gain" F - fadeLevel frames F| ≤
      10 / frames + frames / 2 ^ 50 := by
  have hn := length_near frames sr hsr
  set len := fromDuration (RowExamples.duration frames sr) with hlen
  have hle' : (sr : ℝ) ≤ 2 ^ 28 := by exact_mod_cast hle
  have hpos : (0 : ℝ) < sr := by exact_mod_cast hsr
  have hfr' : (100 : ℝ) ≤ frames := by exact_mod_cast hfr
  set u : ℝ := 2 ^ 32 / sr with hu
  have hu16 : 16 ≤ u := by
    rw [hu, le_div_iff₀ hpos]
    linarith
  have hun : 0 < u := by linarith
  have hFr : (F : ℝ) < frames := by exact_mod_cast hFf
  have hF0 : (0 : ℝ) ≤ F := Nat.cast_nonneg F
  rw [abs_le] at hn
  have hbig : (frames : ℝ) * 16 ≤ frames * u := mul_le_mul_of_nonneg_left hu16 (by linarith)
  have hlenpos : (0 : ℝ) < len := by linarith [hn.1]
  have hlen0 : 0 < len := by exact_mod_cast hlenpos
  set M : ℝ := len / u with hM
  have hMu : M * u = len := by rw [hM]; field_simp
  have hM1 : (frames : ℝ) - 1 / 5 ≤ M := by
    rw [hM, le_div_iff₀ hun]
    nlinarith [hn.1]
  have hM2 : M ≤ frames + 1 / 5 := by
    rw [hM, div_le_iff₀ hun]
    nlinarith [hn.2]
  have hT : (0 : Int) = Timestamp.fromSamples (framesIn (ks.take 0)) sr := by
    simp [framesIn, Timestamp.fromSamples, Timestamp.fromSeconds, Timestamp.roundHalfEven]
  obtain ⟨t, t1, t2, t3⟩ := RowExamples.C93_linear (FxKind.gain 2) b "gain" mf sr hsr hle _ 0
      [⟨1, 0, 0⟩, ⟨0, 0, len⟩] (by
      intro j
      rw [hown j]
      split
      · have : ¬ (0 : Int) = len := by omega
        simp [Automation.request, Timestamp.zero, this]
      · rfl) ks es h 0 hT (by simp [hlen0]) M 1 M (by linarith) (by linarith)
      (by
        rw [← hu]
        refine ⟨?_, ?_⟩
        · simp [Automation.arriving, hMu]
        · have : ¬ (0 : Int) = max len 0 := by omega
          simp [Automation.arriving]
          intro h0
          exact absurd h0 (by exact_mod_cast (show ¬ len ≤ 0 by omega)))
      (by
        rw [← hu]
        simp [hMu, hlenpos.le])
      (by simp [FxKind.default]) F hF (by simp [framesIn])
  have h0' : (0 : ℝ) ≤ t := by exact_mod_cast t1
  have hcur : Automation.curve Automation.linear ((FxKind.gain 2).default "gain")
      (([⟨1, 0, 0⟩, ⟨0, 0, len⟩] : List AutomationPoint).map (Automation.arriving 0)) t = 1 - min ((t : ℝ) / len) 1 := by
    have hmax : max len 0 = len := max_eq_left hlen0.le
    have ht0 : ¬ (t : ℝ) < 0 := not_lt.mpr h0'
    simp only [Automation.arriving, List.map_cons, List.map_nil, Automation.curve, Automation.linear]
    simp only [hmax, if_false, max_self, ht0, Int.cast_zero, sub_zero]
    by_cases hlt : (t : ℝ) < len
    · have hlt' := hlt
      rw [if_pos hlt, min_eq_left ((div_le_one hlenpos).mpr hlt'.le)]
      ring
    · have hlt' : (len : ℝ) ≤ t := not_lt.mp hlt
      rw [if_neg hlt, min_eq_right ((one_le_div hlenpos).mpr hlt')]
      ring
  rw [hcur] at t3
  have hdiff : |(t : ℝ) / len - F / frames| ≤ 3 / 10 / frames := by
    have e : (t : ℝ) / len - F / frames = (((t : ℝ) - F * u) * frames - F * (len - frames * u)) / (len * frames) := by
      have : (len : ℝ) ≠ 0 := hlenpos.ne'
      have : (frames : ℝ) ≠ 0 := by linarith
      field_simp
      ring
    rw [← hu, abs_le] at t2
    have hq : |((t : ℝ) - F * u) * frames - F * (len - frames * u)| ≤ (9 / 2) * frames := by
      have b1 := mul_le_mul_of_nonneg_right t2.1 (show (0 : ℝ) ≤ frames by linarith)
      have b2 := mul_le_mul_of_nonneg_right t2.2 (show (0 : ℝ) ≤ frames by linarith)
      have b3 := mul_le_mul_of_nonneg_left hn.1 hF0
      have b4 := mul_le_mul_of_nonneg_left hn.2 hF0
      rw [abs_le]
      constructor <;> linarith
    have hlf : (0 : ℝ) < len * frames := by positivity
    rw [e, abs_div, abs_of_pos hlf, div_le_div_iff₀ hlf (by linarith)]
    have : (15 : ℝ) * frames ≤ len := by linarith [hn.1]
    nlinarith [mul_le_mul_of_nonneg_right hq (show (0 : ℝ) ≤ frames by linarith)]
  have hm := min_near ((t : ℝ) / len) (F / frames)
  have a3 : 8 * 1 / (M - 3) ≤ 9 / frames := by
    rw [div_le_div_iff₀ (by linarith) (by linarith)]
    nlinarith
  have a4 : M / 2 ^ 51 ≤ frames / 2 ^ 50 := by
    rw [div_le_div_iff₀ (by norm_num) (by norm_num)]
    nlinarith
  have a5 : (9 : ℝ) / frames + 3 / 10 / frames ≤ 10 / frames := by
    rw [← add_div]
    exact div_le_div_of_nonneg_right (by norm_num) (by linarith)
  rw [fadeLevel]
  rw [abs_le] at t3 hm ⊢
  rw [abs_le] at hdiff
  have := le_abs_self ((t : ℝ) / len - F / frames)
  have hab : |(t : ℝ) / len - F / frames| ≤ 3 / 10 / frames := abs_le.mpr hdiff
  constructor <;> linarith [t3.1, t3.2, hm.1, hm.2]

/-! ## The signals -/

variable {N : Platform} {al : Int → Nat → Nat → Nat → Nat × Nat}

/-- A node of the example among the others. -/
theorem node_makes (hz : ∀ x, N.isZero x = true → x = 0) (ho : ∀ x, N.isOne x = true → x = 1) {sr mf : Nat} (hsr : 0 < sr)
    (hsr' : sr < 2 ^ 32) (hm : 0 < mf) (hlen : mf * sr ≤ 2 ^ 33) {k : NodeKind} (hk : k.Usable) {i : Id} {d : Dsp MixedNode}
    (hd : k.make sr mf i = .ok d) (hid : d.id = i)
    {changes : Nat → List (Id × WithMeters.Request MixedRequest)}
    {ks : List (Call ℝ (WithMeters MixedNode) (WithMeters.Request MixedRequest))}
    {es : List (ChainEvent (WithMeters.Request MixedRequest))} (h : ChainHistory mf sr changes ks es)
    (hreq : ∀ j x, x ∈ seenBy i (WithMeters.Request.other? (C := MixedRequest)) (changes j) → x.2.Proper)
    {x y : Nat → Nat → ℝ} {L : List (Dsp (WithMeters MixedNode))}
    (hr : chainRun (WithMeters.ops (MixedNode.ops N al)) sr [d.within .other] es x = .ok (y, L)) :
    k.Makes sr (framesIn ks) i (es.filterMap (ChainEvent.seen i WithMeters.Request.other?)) x y := by
  obtain ⟨d', h1⟩ := (WithMeters.embeds_other (MixedNode.ops N al)).chainRun es hr
  rw [hid] at h1
  have hh := history_seen (P' := MixedNode) i (WithMeters.Request.other? (C := MixedRequest)) h
  have ht := Chain.history_total hh
  rw [framesIn_bare] at ht
  rw [← ht]
  refine NodeKind.node_makes hz ho hsr hsr' hm hlen i k hk d hd _ ?_ h1
  intro e he
  have := Sampler.history_events hm hh e he
  cases e with
  | change i r =>
    obtain ⟨j, hj⟩ := this
    exact hreq j _ hj
  | block t k => exact this

end MeterExample
end Rawdio
