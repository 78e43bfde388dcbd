import Verif.Lemmas.MixedLevels
import Verif.Lemmas.ProgramSteps
import Verif.Lemmas.RecorderKeepsUp
import Verif.Model.RecordExample

/-! Helper lemmas about the example that records the system input. -/

namespace Rawdio

open Processor Network

namespace RecorderNode

variable {S P C : Type} [Zero S] {sr ch : Nat}

/-- Nothing is taken from a recorder but by `take_recording`. -/
theorem run_taken (others : NodeOps S P C) (i : Id) (es : List (ChainEvent (WithRecorders.Request C))) :
    ∀ {s s' : RecorderNode S} {x y : Nat → Nat → S} {L : List (Dsp (WithRecorders S P))},
    .change i (.recorder .takeRecording) ∉ es →
    chainRun (WithRecorders.ops others) sr [⟨i, ch, 0, .recorder s⟩] es x = .ok (y, L) →
    L = [⟨i, ch, 0, .recorder s'⟩] → s'.taken = s.taken := by
  induction es with
  | nil =>
    intro s s' x y L _ h hL
    cases h
    cases hL
    rfl
  | cons e es ih =>
    intro s s' x y L hn h hL
    rw [List.mem_cons, not_or] at hn
    cases e with
    | change j c =>
      have hc := chainRun_change h
      by_cases hj : i = j
      · subst hj
        rw [if_pos rfl] at hc
        obtain ⟨s1, h1, h2⟩ := hc
        cases c with
        | other c => cases h1
        | recorder r =>
          simp only [WithRecorders.ops, RecorderNode.ops, bind, Except.bind] at h1
          cases hr : s.recorder.step 0 (r.action : RecorderAction S) with
          | error e => rw [hr] at h1; cases h1
          | ok v =>
            rw [hr] at h1
            cases h1
            rw [ih hn.2 h2 hL]
            have hsend : ∀ t k, (s.recorder.send t k).map (·, (none : Option (Grid S))) = .ok v →
                s.taken ++ v.2.toList = s.taken := by
              intro t k h
              cases hs : s.recorder.send t k with
              | error e => rw [hs] at h; cases h
              | ok r1 =>
                rw [hs] at h
                injection h with h
                subst h
                simp
            cases r with
            | recordNow => exact hsend _ _ hr
            | stopNow => exact hsend _ _ hr
            | stopAt t => exact hsend _ _ hr
            | takeRecording => exact absurd rfl hn.1
            | notifications =>
              cases hn' : s.recorder.processNotifications with
              | error e => rw [RecorderRequest.action, Recorder.step, hn'] at hr; cases hr
              | ok r1 =>
                rw [RecorderRequest.action, Recorder.step, hn'] at hr
                cases hr
                simp
            | numbersDrawn n =>
              cases hr
              simp
      · rw [if_neg hj] at hc
        exact ih hn.2 hc hL
    | block t n =>
      obtain ⟨u, ds', v, h1, h2, rfl⟩ := chainRun_block h
      obtain ⟨z, s1, h3, rfl, rfl⟩ := chainBlock_single h1
      simp only [WithRecorders.ops, RecorderNode.ops, bind, Except.bind] at h3
      cases hr : unbounded (fun fuel => s.recorder.step fuel
          (.block ⟨s.channelCount, n, fun c f => (window ch n x c f).getD 0⟩ t)) with
      | error e => rw [hr] at h3; cases h3
      | ok w =>
        rw [hr] at h3
        cases h3
        rw [ih hn.2 h2 hL]

end RecorderNode

namespace RecordExample

variable {sr mf n a b first : Nat} {duration : Int} {passes : Nat → Nat} {m : Dsp MixedNode}

/-- The calls of the example, in one shape. -/
noncomputable def allCalls (sr n : Nat) (duration : Int) (a first : Nat) (m : Dsp MixedNode) (passes : Nat → Nat)
    (i : Nat) : List Api :=
  (if i = 0 then setUp sr n duration a first m else []) ++
    List.replicate (passes i) (.change ⟨a, 0⟩ (.recorder .notifications))

theorem program_eq (hm : (NodeKind.mixer n 2).make sr mf b = .ok m) :
    program sr mf n duration a b first passes = .ok (allCalls sr n duration a first m passes) := by
  rw [program, hm]
  rfl

theorem setUp_eq : setUp sr n duration a first m =
    [.create a 2 0 (.recorder ⟨2, Recorder.new sr 2 first, []⟩), .change ⟨a, 0⟩ (.recorder .recordNow),
      .change ⟨a, 0⟩ (.recorder (.stopAt duration)), .create m.id m.inputCount m.outputCount (.other m.state)] ++
    (levels n).map (fun l => .change ⟨m.id, m.outputCount⟩ (.other (.level l))) ++
    [.connectToInput ⟨m.id, m.outputCount⟩, .connectTo ⟨m.id, m.outputCount⟩ ⟨a, 0⟩, .start] := by
  simp [setUp, RecorderNode.node, connectNodes]

theorem replicate_map (k : Nat) : List.replicate k (ApiCall.change ⟨a, 0⟩ (.recorder .notifications) : Api) =
    (List.range k).map fun _ => .change ⟨a, 0⟩ (.recorder .notifications) := by
  rw [List.map_const', List.length_range]

theorem calls_made : made (allCalls sr n duration a first m passes 0) =
    [⟨a, 2, 0, .recorder ⟨2, Recorder.new sr 2 first, []⟩⟩, m.within .other] := by
  rw [allCalls, if_pos rfl, setUp_eq, made_append, made_append, made_append, ProgramSteps.made_change, replicate_map,
    ProgramSteps.made_change]
  rfl

theorem calls_links : links (allCalls sr n duration a first m passes 0) = [⟨m.id, a, 0, 0, m.outputCount⟩] := by
  rw [allCalls, if_pos rfl, setUp_eq, links_append, links_append, links_append, ProgramSteps.links_change, replicate_map,
    ProgramSteps.links_change]
  rfl

theorem calls_input : input (allCalls sr n duration a first m passes 0) = some m.id := by
  rw [allCalls, if_pos rfl, setUp_eq, replicate_map, input, List.reverse_append, List.findSome?_append,
    List.findSome?_eq_none_iff.mpr (by
      intro x hx
      rw [List.mem_reverse, List.mem_map] at hx
      obtain ⟨_, _, rfl⟩ := hx
      rfl)]
  simp

theorem calls_requests (i : Nat) : requests (allCalls sr n duration a first m passes i) =
    (if i = 0 then [(a, .recorder .recordNow), (a, .recorder (.stopAt duration))] ++
      (levels n).map (fun l => (m.id, .other (.level l))) else []) ++
    List.replicate (passes i) (a, .recorder .notifications) := by
  rw [allCalls, requests_append, replicate_map, ProgramSteps.requests_change, List.map_const', List.length_range]
  congr 1
  split
  · rw [setUp_eq, requests_append, requests_append, ProgramSteps.requests_change]
    simp [requests]
  · rfl

theorem calls_range (k : Nat) : (List.range k).flatMap (allCalls sr n duration a first m passes) =
    if k = 0 then [] else setUp sr n duration a first m ++ (List.range k).flatMap fun i =>
      List.replicate (passes i) (.change ⟨a, 0⟩ (.recorder .notifications)) := by
  cases k with
  | zero => rfl
  | succ k =>
    rw [if_neg (by omega), List.range_succ_eq_map, List.flatMap_cons, List.flatMap_cons, allCalls, if_pos rfl,
      List.append_assoc, List.flatMap_map, List.flatMap_map]
    rfl

theorem calls_allowed (mc : Nat) (hab : a ≠ m.id) (h2 : 2 ≤ mc) (hi : m.inputCount ≤ mc) (ho : m.outputCount ≤ mc)
    (k : Nat) : Allowed (fun h c => h.Typed c ∧ h.Careful mc c) Holding.empty
      ((List.range k).flatMap (allCalls sr n duration a first m passes)) := by
  rw [calls_range]
  split
  · trivial
  have hch := ProgramSteps.changes (P := WithRecorders ℝ MixedNode) (C := WithRecorders.Request MixedRequest)
  have c1 := hch ((levels n).map fun l => .change ⟨m.id, m.outputCount⟩ (.other (.level l)))
    ⟨[⟨a, 2, 0⟩, ⟨m.id, m.inputCount, m.outputCount⟩], []⟩ (by
      intro c hc
      obtain ⟨l, _, rfl⟩ := List.mem_map.mp hc
      exact ⟨_, _, rfl, _, List.mem_cons_of_mem _ List.mem_cons_self, rfl, rfl⟩) mc
  have c2 := hch ((List.range k).flatMap fun i =>
      List.replicate (passes i) (.change ⟨a, 0⟩ (.recorder .notifications)))
    ⟨[⟨a, 2, 0⟩, ⟨m.id, m.inputCount, m.outputCount⟩], [⟨m.id, a, 0, 0, m.outputCount⟩]⟩ (by
      intro c hc
      obtain ⟨i, _, hi⟩ := List.mem_flatMap.mp hc
      obtain rfl := (List.mem_replicate.mp hi).2
      exact ⟨_, _, rfl, _, List.mem_cons_self, rfl, rfl⟩) mc
  have hrec : Holding.Holds ⟨[⟨a, 2, 0⟩, ⟨m.id, m.inputCount, m.outputCount⟩], []⟩ ⟨a, 0⟩ := ⟨_, List.mem_cons_self, rfl, rfl⟩
  have hmix : Holding.Holds ⟨[⟨a, 2, 0⟩, ⟨m.id, m.inputCount, m.outputCount⟩], []⟩ ⟨m.id, m.outputCount⟩ :=
    ⟨_, List.mem_cons_of_mem _ List.mem_cons_self, rfl, rfl⟩
  have hrec1 : Holding.Holds ⟨[⟨a, 2, 0⟩], []⟩ ⟨a, 0⟩ := ⟨_, List.mem_cons_self, rfl, rfl⟩
  have hH1 : Holding.empty.afterAll ([.create a 2 0 (.recorder ⟨2, Recorder.new sr 2 first, []⟩),
      .change ⟨a, 0⟩ (.recorder .recordNow), .change ⟨a, 0⟩ (.recorder (.stopAt duration)),
      .create m.id m.inputCount m.outputCount (.other m.state)] : List Api) =
        ⟨[⟨a, 2, 0⟩, ⟨m.id, m.inputCount, m.outputCount⟩], []⟩ := rfl
  have hafter : ∀ (h : Holding) (xs ys : List Api), h.afterAll (xs ++ ys) = (h.afterAll xs).afterAll ys := by
    intro h xs ys
    rw [Holding.afterAll, List.foldl_append]
    rfl
  rw [setUp_eq, allowed_append, allowed_append, allowed_append, hafter, hafter, hafter, hH1, c1.2]
  refine ⟨⟨⟨⟨⟨by simp [Holding.Typed, Holding.empty], h2, Nat.zero_le _, by simp [Holding.empty]⟩,
    ⟨hrec1, trivial⟩, ⟨hrec1, trivial⟩, ⟨?_, hi, ho, by simp [Holding.after, Holding.empty]⟩, trivial⟩, c1.1⟩,
    ⟨hmix, trivial⟩, ⟨⟨hmix, hrec⟩, ?_, ?_⟩, ⟨trivial, trivial⟩, trivial⟩, c2.1⟩
  · intro x hx
    simp [Holding.after, Holding.empty] at hx
    subst hx
    exact hab
  · rintro ⟨l, hl, _⟩
    cases hl
  · intro x hx
    have key : ∀ p q, (Holding.after ⟨[⟨a, 2, 0⟩, ⟨m.id, m.inputCount, m.outputCount⟩], []⟩
        (.connectTo ⟨m.id, m.outputCount⟩ ⟨a, 0⟩ : Api)).Joined p q → p = m.id ∧ q = a := by
      rintro p q ⟨l, hl, h1, h2⟩
      simp [Holding.after] at hl
      subst hl
      exact ⟨h1.symm, h2.symm⟩
    have key2 : ∀ p q, Relation.TransGen (Holding.after ⟨[⟨a, 2, 0⟩, ⟨m.id, m.inputCount, m.outputCount⟩], []⟩
        (.connectTo ⟨m.id, m.outputCount⟩ ⟨a, 0⟩ : Api)).Joined p q → p = m.id ∧ q = a := by
      intro p q h
      induction h with
      | single h => exact key _ _ h
      | tail h1 h2 ih => exact ⟨ih.1, (key _ _ h2).2⟩
    obtain ⟨h1, h2⟩ := key2 _ _ hx
    exact hab (h2.symm.trans h1)

theorem calls_program (hab : a ≠ m.id) : Program (allCalls sr n duration a first m passes) := by
  refine ⟨?_, ?_, ?_, ?_⟩
  · intro c hc
    rw [allCalls, if_pos rfl, setUp_eq] at hc
    simp only [List.mem_append, List.mem_cons, List.mem_map, List.mem_replicate, List.not_mem_nil, or_false] at hc
    rcases hc with ((( rfl | rfl | rfl | rfl) | ⟨l, _, rfl⟩) | rfl | rfl | rfl) | ⟨_, rfl⟩ <;> trivial
  · have := calls_allowed (sr := sr) (n := n) (duration := duration) (first := first) (passes := passes)
      (2 + m.inputCount + m.outputCount) hab (by omega) (by omega) (by omega) 1
    simp only [List.range_one, List.flatMap_cons, List.flatMap_nil, List.append_nil] at this
    exact ProgramSteps.allowed_left _ _ this
  · rw [allCalls, if_pos rfl, setUp_eq]
    simp
  · intro i hi c hc
    rw [allCalls, if_neg (by omega), List.nil_append] at hc
    obtain rfl := (List.mem_replicate.mp hc).2
    trivial

theorem calls_plain (hab : a ≠ m.id) : Plain (made (allCalls sr n duration a first m passes 0))
    (links (allCalls sr n duration a first m passes 0)) (input (allCalls sr n duration a first m passes 0)) := by
  rw [calls_made, calls_links, calls_input]
  refine ⟨?_, ?_⟩
  · intro l hl he
    rw [List.mem_singleton] at hl
    subst hl
    injection he with he
    exact hab he.symm
  · intro l hl _ _ _ d hd he
    rw [List.mem_singleton] at hl
    subst hl
    simp only [List.mem_cons, List.not_mem_nil, or_false] at hd
    rcases hd with rfl | rfl
    · exact absurd he hab
    · exact le_refl _

theorem calls_sent {S P : Type} (hab : a ≠ m.id) (ks : List (Call S P (WithRecorders.Request MixedRequest)))
    (hks : ks ≠ []) :
    WithRecorders.sent (fun i => requests (allCalls sr n duration a first m passes i)) a ks =
      [(0, ⟨0, true⟩), (0, ⟨duration, false⟩)] := by
  have hnone : ∀ (j i : Nat), (List.replicate (passes i) (a, WithRecorders.Request.recorder (C := MixedRequest)
      RecorderRequest.notifications)).filterMap (fun x =>
        if x.1 = a then (x.2.recorder?.bind RecorderRequest.asks).map fun q => (framesIn (ks.take j), q) else none) = [] := by
    intro j i
    rw [List.filterMap_eq_nil_iff]
    intro x hx
    obtain rfl := (List.mem_replicate.mp hx).2
    simp [WithRecorders.Request.recorder?, RecorderRequest.asks]
  obtain ⟨l, hl⟩ : ∃ l, ks.length = l + 1 := ⟨ks.length - 1, by have := List.length_pos_of_ne_nil hks; omega⟩
  rw [WithRecorders.sent, hl, List.range_succ_eq_map, List.flatMap_cons, List.flatMap_map]
  have h0 : (List.range l).flatMap (fun j => (requests (allCalls sr n duration a first m passes (j + 1))).filterMap
      fun x => if x.1 = a then (x.2.recorder?.bind RecorderRequest.asks).map fun q => (framesIn (ks.take (j + 1)), q)
        else none) = [] := by
    rw [List.flatMap_eq_nil_iff]
    intro j _
    rw [calls_requests, if_neg (by omega), List.nil_append]
    exact hnone _ _
  simp only [Nat.succ_eq_add_one] at h0 ⊢
  rw [h0, calls_requests, if_pos rfl, List.filterMap_append, List.filterMap_append, hnone, List.append_nil,
    List.append_nil]
  have hlev : ((levels n).map fun l => (m.id, WithRecorders.Request.other (MixedRequest.level l))).filterMap (fun x =>
        if x.1 = a then (x.2.recorder?.bind RecorderRequest.asks).map fun q => (framesIn (ks.take 0), q) else none) = [] := by
    rw [List.filterMap_eq_nil_iff]
    intro x hx
    obtain ⟨_, _, rfl⟩ := List.mem_map.mp hx
    rw [if_neg (Ne.symm hab)]
  rw [hlev]
  simp [WithRecorders.Request.recorder?, RecorderRequest.asks, framesIn]

/-- All levels are set to one. -/
theorem levels_fold (level : Nat → Nat → ℝ) {j c : Nat} (hj : j < n) (hc : c < 2) :
    ((levels n).foldl (fun L r => setLevelOf L r.input r.output r.level.linear) level) j c = 1 := by
  have key : ∀ (rs : List SetLevel) (level : Nat → Nat → ℝ), (∀ r ∈ rs, r.level.linear = 1) →
      (level j c = 1 ∨ ∃ r ∈ rs, r.input = j ∧ r.output = c) →
      (rs.foldl (fun L r => setLevelOf L r.input r.output r.level.linear) level) j c = 1 := by
    intro rs
    induction rs with
    | nil =>
      rintro level _ (h | ⟨r, hr, _⟩)
      · exact h
      · cases hr
    | cons r rs ih =>
      intro level h1 h2
      refine ih _ (fun r hr => h1 r (List.mem_cons_of_mem _ hr)) ?_
      show (if j = r.input ∧ c = r.output then r.level.linear else level j c) = 1 ∨ _
      by_cases hh : j = r.input ∧ c = r.output
      · rw [if_pos hh]
        exact .inl (h1 r List.mem_cons_self)
      · rw [if_neg hh]
        rcases h2 with h2 | ⟨q, hq, hq1, hq2⟩
        · exact .inl h2
        · rcases List.mem_cons.mp hq with rfl | hq
          · exact absurd ⟨hq1.symm, hq2.symm⟩ hh
          · exact .inr ⟨q, hq, hq1, hq2⟩
  refine key _ _ ?_ (.inr ⟨⟨j, c, Level.unity⟩, ?_, rfl, rfl⟩)
  · intro r hr
    obtain ⟨_, _, h⟩ := List.mem_flatMap.mp hr
    obtain ⟨_, _, rfl⟩ := List.mem_map.mp h
    rfl
  · exact List.mem_flatMap.mpr ⟨c, List.mem_range.mpr hc, List.mem_map.mpr ⟨j, List.mem_range.mpr hj, rfl⟩⟩

/-- What comes out of the mixer. -/
theorem mixer_sum {N : Platform} {al : Int → Nat → Nat → Nat → Nat × Nat} (hz : ∀ x, N.isZero x = true → x = 0)
    (ho : ∀ x, N.isOne x = true → x = 1) (hsr : 0 < sr) (hsr' : sr < 2 ^ 32) (hm : 0 < mf) (hlen : mf * sr ≤ 2 ^ 33)
    (hn : n ≤ 8) (hmk : (NodeKind.mixer n 2).make sr mf b = .ok m) (hb : m.id = b) (hab : a ≠ b)
    {ks : List (Call ℝ (WithRecorders ℝ MixedNode) (WithRecorders.Request MixedRequest))}
    {es : List (ChainEvent (WithRecorders.Request MixedRequest))}
    (h : ChainHistory mf sr (fun i => requests (allCalls sr n duration a first m passes i)) ks es)
    {x y : Nat → Nat → ℝ} {L : List (Dsp (WithRecorders ℝ MixedNode))}
    (hr : chainRun (WithRecorders.ops (MixedNode.ops N al)) sr [m.within .other] es x = .ok (y, L)) (c F : Nat)
    (hc : c < 2) (hF : F < framesIn ks) : y c F = ∑ j ∈ Finset.range n, x j F := by
  obtain ⟨d', h1⟩ := (WithRecorders.embeds_other (MixedNode.ops N al)).chainRun es hr
  rw [hb] at h1
  have hh := history_seen (P' := MixedNode) b (WithRecorders.Request.other? (C := MixedRequest)) h
  have hchanges : ∀ i, seenBy b (WithRecorders.Request.other? (C := MixedRequest))
      (requests (allCalls sr n duration a first m passes i)) =
        if i = 0 then (levels n).map fun l => (b, MixedRequest.level l) else [] := by
    intro i
    have hno : seenBy b (WithRecorders.Request.other? (C := MixedRequest))
        (List.replicate (passes i) (a, .recorder .notifications)) = [] := by
      rw [seenBy, List.filterMap_eq_nil_iff]
      intro q hq
      obtain rfl := (List.mem_replicate.mp hq).2
      rw [if_neg hab]
    rw [calls_requests]
    unfold seenBy at hno ⊢
    rw [List.filterMap_append, hno, List.append_nil]
    split
    · rw [List.filterMap_append, List.filterMap_map]
      simp only [List.filterMap_cons, if_neg hab, List.filterMap_nil, List.nil_append, hb, Function.comp_def, if_true,
        WithRecorders.Request.other?, Option.map_some]
      exact List.filterMap_eq_map' (f := fun l => (b, MixedRequest.level l)) ▸ rfl
    · rfl
  simp only [hchanges] at hh
  have ht := Chain.history_total hh
  rw [framesIn_bare] at ht
  have hmake := NodeKind.node_makes hz ho hsr hsr' hm hlen b (.mixer n 2) ⟨hn, by norm_num⟩ m hmk _ (by
    intro e he
    have := Sampler.history_events hm hh e he
    cases e with
    | change i r =>
      obtain ⟨j, hj⟩ := this
      split at hj
      · obtain ⟨l, _, hl⟩ := List.mem_map.mp hj
        cases hl
        trivial
      · cases hj
    | block t k => exact this) h1
  have := hmake c F (by rw [ht]; exact hF)
  rw [this, NodeKind.mixed, if_pos (show c < (NodeKind.mixer n 2).outputs from hc)]
  refine Finset.sum_congr rfl fun j hj => ?_
  obtain ⟨k, hk1, hk2⟩ : ∃ k, framesIn (ks.take k) ≤ F ∧ F < framesIn (ks.take (k + 1)) := by
    have key : ∀ l, F < framesIn (ks.take l) → ∃ k, framesIn (ks.take k) ≤ F ∧ F < framesIn (ks.take (k + 1)) := by
      intro l
      induction l with
      | zero => intro h; simp [framesIn] at h
      | succ l ih =>
        intro h
        by_cases h' : F < framesIn (ks.take l)
        · exact ih h'
        · exact ⟨l, by omega, h⟩
    exact key ks.length (by rwa [List.take_length])
  rw [(levels_history b hh _).2.2 k F (by rw [← List.map_take, framesIn_bare]; exact hk1)
    (by rw [← List.map_take, framesIn_bare]; exact hk2)]
  have hset : levelsSet b (fun i => if i = 0 then (levels n).map fun l => (b, MixedRequest.level l) else []) (k + 1) =
      levels n := by
    rw [levelsSet, List.range_succ_eq_map, List.flatMap_cons, List.flatMap_map,
      List.flatMap_eq_nil_iff.mpr (by intro i _; rfl), List.append_nil, if_pos rfl, seenBy, List.filterMap_map,
      List.map_filterMap]
    simp only [Function.comp_def, if_true, MixedRequest.level?, Option.map_some]
    rw [List.filterMap_some]
  rw [hset, levels_fold _ (Finset.mem_range.mp hj) hc]
  have : effectiveGain 1 = 1 := by
    have h1 : ¬ |(1 : ℝ)| ≤ epsilon := by rw [epsilon]; norm_num
    rw [effectiveGain, if_neg h1, if_pos (by simp [epsilon])]
  rw [this, mul_one]

theorem calls_attended {S P : Type} (hab : a ≠ m.id) (ks : List (Call S P (WithRecorders.Request MixedRequest)))
    (hp : passes 0 = 0) (hp' : ∀ i, 0 < i → i < ks.length → passes i = 1) :
    RecorderAttended (fun i => requests (allCalls sr n duration a first m passes i)) a ks := by
  have hno : ((levels n).map fun l => (m.id, WithRecorders.Request.other (MixedRequest.level l))).filterMap (fun y =>
      if y.1 = a then y.2.recorder? else none) = [] := by
    rw [List.filterMap_eq_nil_iff]
    intro x hx
    obtain ⟨_, _, rfl⟩ := List.mem_map.mp hx
    rw [if_neg (Ne.symm hab)]
  intro i hi
  by_cases h0 : i = 0
  · subst h0
    refine ⟨[.recordNow, .stopAt duration], ?_, by simp, by simp⟩
    dsimp only
    rw [calls_requests, if_pos rfl, hp, if_pos rfl, List.replicate_zero, List.append_nil, List.filterMap_append,
      hno]
    simp [WithRecorders.Request.recorder?]
  · refine ⟨[], ?_, by simp, by simp⟩
    dsimp only
    rw [calls_requests, if_neg h0, hp' i (by omega) hi, if_neg h0]
    simp [WithRecorders.Request.recorder?]

end RecordExample
end Rawdio
