import Verif.Props.Parameter

/-!
# Properties of parameters (C21 to C24 and C61)
-/

namespace Rawdio
namespace RealtimeParameter

open ParameterChange

variable {V : Type}

/-! ## C21 -/

/-- C21 in full: blocks with the same frame times give the same values. -/
def SplitSame : Prop :=
  ∀ (r : ParameterRange ℝ) (sr : Nat) (as : List (ParameterAction ℝ)) (bs bs' : List (Int × Nat)),
    r.Valid → 0 < sr → frameTimes sr bs = frameTimes sr bs' →
    (processAll realArith sr (actAll realArith r sr (new realArith r.default) as).2 bs).1 =
      (processAll realArith sr (actAll realArith r sr (new realArith r.default) as).2 bs').1

/-- C21: after a history of immediate changes, blocks with the same frame times give the same values
and leave the parameter in the same state, whatever the arithmetic. -/
theorem C21_immediate [LinearOrder V] (A : Arith V) (r : ParameterRange V) (sr : Nat)
    (as : List (ParameterAction V)) (hi : ParameterAction.Immediate as) (bs bs' : List (Int × Nat))
    (hc : (0 :: (frameTimes sr (ParameterAction.blocks as) ++ frameTimes sr bs)).Pairwise (· ≤ ·))
    (he : frameTimes sr bs = frameTimes sr bs') :
    processAll A sr (actAll A r sr (new A r.default) as).2 bs =
      processAll A sr (actAll A r sr (new A r.default) as).2 bs' := by
  obtain ⟨p, hp⟩ : ∃ p, p = (actAll A r sr (new A r.default) as).2 := ⟨_, rfl⟩
  rw [← hp]
  have hS : Settled p (frameTimes sr bs) := by
    rw [hp]; exact actAll_settled A r sr as _ _ hi (settled_new A _ _ hc)
  have h : ∀ cs, frameTimes sr bs = frameTimes sr cs →
      processAll A sr p cs = steps A sr p (frameTimes sr cs) := fun cs hcs =>
    (processAll_steps A sr Settled (fun q t ts hq => hq.step)
      (fun q ts hq hs => hq.static hs) cs p (hcs ▸ hS)).1
  rw [h bs rfl, h bs' he, he]

/-- Two blocks of one frame and a block of two frames. -/
theorem two_frames : frameTimes 1 [(5, 1), (5 + 4294967296, 1)] = frameTimes 1 [(5, 2)] ∧
    frameTimes 1 [(5, 2)] = [5, 5 + 4294967296] := by
  constructor <;>
  · simp [frameTimes, List.range_succ, Timestamp.incrementedBySamples, Timestamp.fromSamples,
      Timestamp.fromSeconds, Timestamp.roundHalfEven, Timestamp.one]

example : processAll realArith 1 (actAll realArith ⟨0, 0, 2⟩ 1 (new realArith 0)
      [.request 1 7 .immediate]).2 [(5, 1), (5 + 4294967296, 1)] =
    processAll realArith 1 (actAll realArith ⟨0, 0, 2⟩ 1 (new realArith 0)
      [.request 1 7 .immediate]).2 [(5, 2)] :=
  C21_immediate realArith ⟨0, 0, 2⟩ 1 _ (by intro v e m h; simp at h; exact h.2.2) _ _ (by
    rw [two_frames.1, two_frames.2]; simp [ParameterAction.blocks, frameTimes]) two_frames.1

/-- No block begins while the value moves by steps of at most 2^-52 (relative to its factor). -/
def NoTinySteps (sr : Nat) : RealtimeParameter ℝ → List (Int × Nat) → Prop
  | _, [] => True
  | p, b :: bs => (|p.coefficient - 1| ≤ max |p.coefficient| 1 / 2 ^ 52 → |p.increment| ≤ 1 / 2 ^ 52 →
        p.coefficient = 1 ∧ p.increment = 0) ∧
      NoTinySteps sr (process realArith p b.1 b.2 sr).2 bs

/-- If the value does not move then it has reached the target; ramps are linear, or else they are
exponential and all values are positive. -/
structure Still (linear : Bool) (p : RealtimeParameter ℝ) : Prop where
  still : p.coefficient = 1 → p.increment = 0 → p.value = p.current.value
  methods : (linear = true ∧ ∀ c ∈ p.changes, ∀ s, c.method ≠ .exponential s) ∨
    (linear = false ∧ (∀ c ∈ p.changes, 0 < c.value ∧ ∀ s, c.method ≠ .linear s) ∧ 0 < p.value ∧ 0 < p.current.value ∧
      0 < p.coefficient ∧ p.increment = 0)

theorem rampLength_ne {sr : Nat} (hsr : 0 < sr) {t e : Int} (h : t < e) : rampLength t e sr ≠ 0 := by
  have h1 : (0 : ℝ) < ((e - t : Int) : ℝ) := by exact_mod_cast (by omega : 0 < e - t)
  have h2 : (0 : ℝ) < sr := by exact_mod_cast hsr
  unfold rampLength
  positivity

theorem factor_real (w v : ℝ) (e t : Int) (sr : Nat) :
    factor realArith w v e t sr = Real.exp (Real.log (w / v) / rampLength t e sr) := by
  unfold factor duration rampLength
  change Real.exp (Real.log (w / v) /
    (((Timestamp.asSamples e sr : ℚ) : ℝ) - ((Timestamp.asSamples t sr : ℚ) : ℝ))) = _
  congr 2
  unfold Timestamp.asSamples Timestamp.asSeconds Timestamp.one
  push_cast
  ring

theorem Still.step {sr : Nat} (hsr : 0 < sr) {p : RealtimeParameter ℝ} {k : Bool} (h : Still k p) (t : Int) :
    Still k (step realArith sr p t) := by
  by_cases hd : ∀ c rest, p.changes = c :: rest → t < c.startTime
  · -- nothing begins
    have hb := begin_none realArith p t sr p.value hd
    unfold RealtimeParameter.step valueAtTime
    simp only [hb]
    constructor
    · intro h1 h2
      change advance realArith p t p.value = p.current.value
      have hv := h.still h1 h2
      unfold advance
      split
      · rfl
      · change p.value * p.coefficient + p.increment = _
        have h1' : p.coefficient = 1 := h1
        have h2' : p.increment = 0 := h2
        rw [h1', h2', mul_one, add_zero, hv]
    · rcases h.methods with h1 | ⟨hk, h1, h2, h3, h4, h5⟩
      · exact .inl h1
      · refine .inr ⟨hk, h1, ?_, h3, h4, h5⟩
        change 0 < advance realArith p t p.value
        unfold advance
        split
        · exact h3
        · change 0 < p.value * p.coefficient + p.increment
          rw [h5, add_zero]
          exact mul_pos h2 h4
  · push Not at hd
    obtain ⟨c, rest, hc, hs⟩ := hd
    have hcur : (begin realArith p t sr p.value).current = c := by
      rw [begin_current, hc]; exact if_pos hs
    have hch : (begin realArith p t sr p.value).changes = rest := by
      rw [begin_changes, hc]; exact if_pos hs
    have hmem : c ∈ p.changes := by rw [hc]; exact List.mem_cons_self
    have hrest : ∀ x ∈ rest, x ∈ p.changes := fun x hx => by rw [hc]; exact List.mem_cons_of_mem _ hx
    have hform : (∃ s, c.method = .exponential s) ∨
        (begin realArith p t sr p.value).coefficient = 1 := by
      unfold begin
      rw [hc]
      simp only
      unfold startTime at hs
      split
      · exact .inr (by rw [if_pos (by simp_all)]; rfl)
      · exact .inr (by rw [if_pos (by simp_all)]; rfl)
      · exact .inl ⟨_, by assumption⟩
    have hinc : (∃ s, c.method = .linear s) ∨ (begin realArith p t sr p.value).increment = 0 := by
      unfold begin
      rw [hc]
      simp only
      unfold startTime at hs
      split
      · exact .inr (by rw [if_pos (by simp_all)]; rfl)
      · exact .inl ⟨_, by assumption⟩
      · exact .inr (by rw [if_pos (by simp_all)]; rfl)
    have hlin : ∀ s, c.method = .linear s → (begin realArith p t sr p.value).increment =
        (c.value - p.value) / rampLength t c.endTime sr := by
      intro s hm
      unfold begin
      rw [hc]
      simp only [hm]
      unfold startTime at hs
      rw [hm] at hs
      rw [if_pos hs, slope_real]
    have hexp : ∀ s, c.method = .exponential s → (begin realArith p t sr p.value).coefficient =
        Real.exp (Real.log (c.value / p.value) / rampLength t c.endTime sr) := by
      intro s hm
      unfold begin
      rw [hc]
      simp only [hm]
      unfold startTime at hs
      rw [hm] at hs
      rw [if_pos hs, factor_real]
    have himm : c.method = .immediate → c.endTime ≤ t := by
      intro hm; unfold startTime at hs; rw [hm] at hs; exact hs
    unfold RealtimeParameter.step valueAtTime
    simp only
    obtain ⟨b, hbdef⟩ : ∃ b, b = begin realArith p t sr p.value := ⟨_, rfl⟩
    rw [← hbdef] at hcur hch hform hinc hlin hexp ⊢
    have hval : advance realArith b t p.value = if c.endTime ≤ t then c.value
        else p.value * b.coefficient + b.increment := by
      unfold advance; rw [hcur]; rfl
    have hpos : ((∀ c ∈ p.changes, 0 < c.value ∧ ∀ s, c.method ≠ .linear s) ∧ 0 < p.value ∧
        0 < p.current.value ∧ 0 < p.coefficient ∧ p.increment = 0) →
        0 < c.value ∧ 0 < b.coefficient ∧ b.increment = 0 := by
      rintro ⟨h1, h2, h3, h4, h5⟩
      refine ⟨(h1 c hmem).1, ?_, ?_⟩
      · rcases hform with ⟨s, hm⟩ | hm
        · rw [hexp s hm]; exact Real.exp_pos _
        · rw [hm]; norm_num
      · rcases hinc with ⟨s, hm⟩ | hm
        · exact absurd hm ((h1 c hmem).2 s)
        · exact hm
    constructor
    · intro h1 h2
      change advance realArith b t p.value = b.current.value
      change b.coefficient = 1 at h1
      change b.increment = 0 at h2
      rw [hval, hcur]
      by_cases hend : c.endTime ≤ t
      · rw [if_pos hend]
      · rw [if_neg hend, h1, h2, mul_one, add_zero]
        have hD := rampLength_ne hsr (by omega : t < c.endTime)
        cases hm : c.method with
        | immediate => exact absurd (himm hm) hend
        | linear s =>
          have := hlin s hm
          rw [h2] at this
          have := (div_eq_zero_iff.mp this.symm).resolve_right hD
          linarith
        | exponential s =>
          rcases h.methods with ⟨_, hno⟩ | ⟨_, hp⟩
          · exact absurd hm (hno c hmem s)
          · have hcpos := (hpos hp).1
            have := hexp s hm
            rw [h1, eq_comm, Real.exp_eq_one_iff] at this
            have hl := (div_eq_zero_iff.mp this).resolve_right hD
            have hq : 0 < c.value / p.value := div_pos hcpos hp.2.1
            have := Real.log_eq_zero.mp hl
            rcases this with h0 | h0 | h0
            · linarith
            · exact ((div_eq_one_iff_eq hp.2.1.ne').mp h0).symm
            · linarith
    · rcases h.methods with ⟨hk, h1⟩ | ⟨hk, hp⟩
      · refine .inl ⟨hk, ?_⟩
        intro x hx
        have hx' : x ∈ b.changes := hx
        rw [hch] at hx'
        exact h1 x (hrest x hx')
      · obtain ⟨g1, g2, g3⟩ := hpos hp
        refine .inr ⟨hk, ?_, ?_, ?_, g2, g3⟩
        · intro x hx
          have hx' : x ∈ b.changes := hx
          rw [hch] at hx'
          exact hp.1 x (hrest x hx')
        · change 0 < advance realArith b t p.value
          rw [hval]
          split
          · exact g1
          · rw [g3, add_zero]; exact mul_pos hp.2.1 g2
        · change 0 < b.current.value
          rw [hcur]; exact g1

theorem Still.steps {sr : Nat} (hsr : 0 < sr) (ts : List Int) : ∀ {k : Bool} {p : RealtimeParameter ℝ},
    Still k p → Still k (steps realArith sr p ts).2 := by
  induction ts with
  | nil => intro k p h; exact h
  | cons t ts ih => intro k p h; exact ih (h.step hsr t)

theorem Still.static {sr : Nat} {p : RealtimeParameter ℝ} {k : Bool} (h : Still k p)
    (hs : isStatic realArith p = true) (h1 : p.coefficient = 1) (h2 : p.increment = 0) (t : Int) :
    RealtimeParameter.step realArith sr p t = p := by
  unfold isStatic at hs
  simp only [Bool.and_eq_true, List.isEmpty_iff] at hs
  have hb := begin_none realArith p t sr p.value (by intro c rest h'; rw [hs.2] at h'; cases h')
  unfold RealtimeParameter.step valueAtTime
  simp only [hb]
  have : advance realArith p t p.value = p.value := by
    unfold advance
    split
    · exact (h.still h1 h2).symm
    · change p.value * p.coefficient + p.increment = _
      rw [h1, h2, mul_one, add_zero]
  rw [this]

theorem Still.process {sr : Nat} (hsr : 0 < sr) {p : RealtimeParameter ℝ} {k : Bool} (h : Still k p) (t : Int)
    (n : Nat) : Still k (process realArith p t n sr).2 := by
  by_cases hs : isStatic realArith p = true
  · unfold RealtimeParameter.process; rw [if_pos hs]; exact h
  · rw [process_steps _ _ _ _ _ (by simpa using hs)]; exact h.steps hsr _

theorem static_small {p : RealtimeParameter ℝ} (h : isStatic realArith p = true) :
    |p.coefficient - 1| ≤ max |p.coefficient| 1 / 2 ^ 52 ∧ |p.increment| ≤ 1 / 2 ^ 52 := by
  unfold isStatic at h
  simp only [Bool.and_eq_true] at h
  obtain ⟨⟨h1, h2⟩, _⟩ := h
  change relativeEq p.coefficient 1 = true at h1
  change relativeEq p.increment 0 = true at h2
  unfold relativeEq epsilon at h1 h2
  rw [decide_eq_true_iff] at h1 h2
  have hm : (1 : ℝ) ≤ max |p.coefficient| 1 := le_max_right _ _
  constructor
  · rcases h1 with h1 | h1 | h1
    · rw [h1]; norm_num
    · refine h1.trans ?_
      gcongr
    · rw [abs_one] at h1
      rw [div_eq_mul_one_div]
      exact h1
  · rw [sub_zero, abs_zero, max_eq_left (abs_nonneg _)] at h2
    rcases h2 with h2 | h2 | h2
    · rw [h2]; norm_num
    · exact h2
    · have : |p.increment| ≤ 0 := by
        by_contra hn
        nlinarith [not_le.mp hn]
      exact this.trans (by norm_num)

theorem Still.processAll {sr : Nat} (hsr : 0 < sr) (bs : List (Int × Nat)) :
    ∀ {k : Bool} {p : RealtimeParameter ℝ}, Still k p → NoTinySteps sr p bs →
    processAll realArith sr p bs = RealtimeParameter.steps realArith sr p (frameTimes sr bs) := by
  induction bs with
  | nil => intro k p _ _; rfl
  | cons b bs ih =>
    intro k p h hn
    have hb : RealtimeParameter.process realArith p b.1 b.2 sr =
        RealtimeParameter.steps realArith sr p
          ((List.range b.2).map (fun i => Timestamp.incrementedBySamples b.1 i sr)) := by
      by_cases hs : isStatic realArith p = true
      · obtain ⟨h1, h2⟩ := hn.1 (static_small hs).1 (static_small hs).2
        rw [steps_fixed _ _ _ _ (fun t _ => h.static hs h1 h2 t)]
        unfold RealtimeParameter.process
        rw [if_pos hs]
        simp
      · exact process_steps _ _ _ _ _ (by simpa using hs)
    rw [RealtimeParameter.processAll, frameTimes_cons, steps_append,
      ih (h.process hsr b.1 b.2) hn.2, hb]

/-- Requests of ramps are only for linear ones, or only for exponential ones in a range of positive
values. -/
def RampsOfOneKind (r : ParameterRange ℝ) (as : List (ParameterAction ℝ)) : Prop :=
  (∀ v e s, ParameterAction.request v e (.exponential s) ∉ as) ∨
    ((∀ v e s, ParameterAction.request v e (.linear s) ∉ as) ∧ 0 < r.minimum)

theorem Still.sub {k : Bool} {p q : RealtimeParameter ℝ} (h : Still k p)
    (h1 : ∀ c ∈ q.changes, c ∈ p.changes) (h2 : q.value = p.value) (h3 : q.current = p.current)
    (h4 : q.coefficient = p.coefficient) (h5 : q.increment = p.increment) : Still k q := by
  refine ⟨by rw [h2, h3, h4, h5]; exact h.still, ?_⟩
  rw [h2, h3, h4, h5]
  exact h.methods.imp (fun g => ⟨g.1, fun c hc => g.2 c (h1 c hc)⟩)
    (fun g => ⟨g.1, fun c hc => g.2.1 c (h1 c hc), g.2.2⟩)

theorem actAll_still (r : ParameterRange ℝ) (hr : r.Valid) (sr : Nat) (hsr : 0 < sr) (k : Bool)
    (as : List (ParameterAction ℝ)) : ∀ (p : RealtimeParameter ℝ), Still k p →
      (k = true → ∀ v e s, ParameterAction.request v e (.exponential s) ∉ as) →
      (k = false → (∀ v e s, ParameterAction.request v e (.linear s) ∉ as) ∧ 0 < r.minimum) →
      Still k (actAll realArith r sr p as).2 := by
  induction as with
  | nil => intro p h _ _; exact h
  | cons a as ih =>
    intro p h k1 k2
    have k1' : k = true → ∀ v e s, ParameterAction.request v e (.exponential s) ∉ as :=
      fun hk v e s hm => k1 hk v e s (List.mem_cons_of_mem _ hm)
    have k2' : k = false → (∀ v e s, ParameterAction.request v e (.linear s) ∉ as) ∧ 0 < r.minimum :=
      fun hk => ⟨fun v e s hm => (k2 hk).1 v e s (List.mem_cons_of_mem _ hm), (k2 hk).2⟩
    rw [actAll]
    refine ih _ ?_ k1' k2'
    cases a with
    | request v e m =>
      have hmem : ∀ c ∈ (p.addChange ⟨r.clamp v, e, m⟩).changes,
          c ∈ p.changes ∨ c = ⟨r.clamp v, e, m⟩ := by
        intro c hc
        have := (addChange_perm p ⟨r.clamp v, e, m⟩).mem_iff.mp hc
        simpa using this
      refine ⟨h.still, ?_⟩
      refine h.methods.imp ?_ ?_
      · rintro ⟨hk, g⟩
        refine ⟨hk, ?_⟩
        intro c hc s
        rcases hmem c hc with hc | rfl
        · exact g c hc s
        · intro hm
          exact k1 hk v e s (by rw [← hm]; exact List.mem_cons_self)
      · rintro ⟨hk, g, g'⟩
        refine ⟨hk, ?_, g'⟩
        intro c hc
        rcases hmem c hc with hc | rfl
        · exact g c hc
        · refine ⟨lt_of_lt_of_le (k2 hk).2 (clamp_mem hr v).1, ?_⟩
          intro s hm
          exact (k2 hk).1 v e s (by rw [← hm]; exact List.mem_cons_self)
    | cancel => exact h.sub (by intro c hc; cases hc) rfl rfl rfl rfl
    | cancelEndingAfter t => exact h.sub (fun c hc => (List.mem_filter.mp hc).1) rfl rfl rfl rfl
    | block t n => exact h.process hsr t n

/-- C21: after any history of requests for linear ramps, or for exponential ones in a range of positive
values, mixed with immediate changes and cancellations, blocks with the same frame times give the same
values and leave the parameter in the same state, if no block begins while the value moves in steps that
the comparison with a tolerance takes for 0. Missing for the full claim: those tiny steps, for which it
fails, and histories with both kinds of ramps. -/
theorem C21_split_partial (r : ParameterRange ℝ) (hr : r.Valid) (sr : Nat) (hsr : 0 < sr)
    (as : List (ParameterAction ℝ)) (hk : RampsOfOneKind r as) (p : RealtimeParameter ℝ)
    (hp : p = (actAll realArith r sr (new realArith r.default) as).2) (bs bs' : List (Int × Nat))
    (he : frameTimes sr bs = frameTimes sr bs') (hn : NoTinySteps sr p bs) (hn' : NoTinySteps sr p bs') :
    processAll realArith sr p bs = processAll realArith sr p bs' := by
  have hS : ∃ k, Still k p := by
    rw [hp]
    rcases hk with hk | ⟨hk, h0⟩
    · exact ⟨true, actAll_still r hr sr hsr true as _
        ⟨fun _ _ => rfl, .inl ⟨rfl, by intro c hc; cases hc⟩⟩ (fun _ => hk) (by intro h; cases h)⟩
    · have hd : 0 < r.default := lt_of_lt_of_le h0 hr.2.1
      exact ⟨false, actAll_still r hr sr hsr false as _
        ⟨fun _ _ => rfl, .inr ⟨rfl, by intro c hc; (cases hc), hd, hd, by simp [new, realArith], rfl⟩⟩
        (by intro h; cases h) (fun _ => ⟨hk, h0⟩)⟩
  obtain ⟨k, hS⟩ := hS
  rw [hS.processAll hsr bs hn, hS.processAll hsr bs' hn', he]

/-- A ramp to `w` over two samples at a sampling rate whose sample times are exact. -/
theorem half_times : frameTimes 4 [((0 : Int), 1), (1073741824, 2)] = [0, 1073741824, 2147483648] ∧
    frameTimes 4 [((0 : Int), 3)] = [0, 1073741824, 2147483648] := by
  constructor <;>
  · simp [frameTimes, List.range_succ, Timestamp.incrementedBySamples, Timestamp.fromSamples,
      Timestamp.fromSeconds, Timestamp.roundHalfEven, Timestamp.one]
    norm_num

/-- The parameter with a ramp from 0 to `w` over two samples. -/
noncomputable def halfRamp (w : ℝ) : RealtimeParameter ℝ :=
  (new realArith 0).addChange ⟨w, 2147483648, .linear 0⟩

theorem halfRamp_pending (w : ℝ) : (halfRamp w).changes = [⟨w, 2147483648, .linear 0⟩] := by
  unfold halfRamp addChange; simp [new]

theorem halfRamp_not_static (w : ℝ) : isStatic realArith (halfRamp w) = false := by
  unfold isStatic; rw [halfRamp_pending]; simp

theorem halfRamp_first (w : ℝ) : process realArith (halfRamp w) 0 1 4 =
    ([w / 2], ⟨w / 2, [], w / 2, 1, ⟨w, 2147483648, .linear 0⟩⟩) := by
  rw [process_steps _ _ _ _ _ (halfRamp_not_static w)]
  have ht : (List.range 1).map (fun i => Timestamp.incrementedBySamples 0 (i : Nat) 4) = [0] := by
    simp [List.range_succ, incremented_zero]
  have hb : begin realArith (halfRamp w) 0 4 (halfRamp w).value =
      ⟨0, [], w / 2, 1, ⟨w, 2147483648, .linear 0⟩⟩ := by
    unfold begin
    rw [halfRamp_pending]
    simp only
    rw [if_pos (le_refl _), slope_real]
    have : (w - (halfRamp w).value) / rampLength 0 2147483648 4 = w / 2 := by
      change (w - 0) / _ = _
      unfold rampLength
      norm_num
    rw [this]
    rfl
  have hs : step realArith 4 (halfRamp w) 0 =
      ⟨w / 2, [], w / 2, 1, ⟨w, 2147483648, .linear 0⟩⟩ := by
    unfold step valueAtTime
    simp only [hb]
    unfold advance
    simp only
    rw [if_neg (by decide)]
    change RealtimeParameter.mk ((0 : ℝ) * 1 + w / 2) _ _ _ _ = _
    rw [zero_mul, zero_add]
  rw [ht]
  simp only [steps]
  rw [hs]

theorem near_refl (x : ℝ) : realArith.near x x = true := by
  change relativeEq x x = true
  simp [relativeEq]

example : processAll realArith 4 (halfRamp 1) [(0, 1), (1073741824, 2)] =
    processAll realArith 4 (halfRamp 1) [(0, 3)] := by
  have hc : (ParameterRange.mk (0 : ℝ) 0 1).clamp 1 = 1 := by unfold ParameterRange.clamp; norm_num
  refine C21_split_partial ⟨0, 0, 1⟩ (by unfold ParameterRange.Valid; norm_num) 4 (by decide)
    [.request 1 2147483648 (.linear 0)] (.inl (by intro v e s h; simp at h)) _ ?_ _ _
    (half_times.1.trans half_times.2.symm) ?_ ?_
  · simp only [actAll, act, hc]; rfl
  · refine ⟨?_, ?_, trivial⟩
    · intro _ _
      exact ⟨rfl, rfl⟩
    · simp only [halfRamp_first]
      intro _ h
      rw [abs_of_pos (by norm_num)] at h
      norm_num at h
  · refine ⟨?_, trivial⟩
    intro _ _
    exact ⟨rfl, rfl⟩

/-- C21 is violated: a ramp in steps smaller than the tolerance of the comparison with 0 stops where a
block ends, and the parameter never reaches its target. -/
theorem C21_split_violated : ¬ SplitSame := by
  intro h
  obtain ⟨w, hw⟩ : ∃ w : ℝ, w = 1 / 2 ^ 53 := ⟨_, rfl⟩
  have hw0 : 0 < w := by rw [hw]; positivity
  have hw1 : w ≤ 1 := by rw [hw]; norm_num
  have hc : (ParameterRange.mk (0 : ℝ) 0 1).clamp w = w := by
    unfold ParameterRange.clamp
    simp only
    rw [min_eq_left hw1, max_eq_right hw0.le]
  have h1 := h ⟨0, 0, 1⟩ 4 [.request w 2147483648 (.linear 0)] [(0, 1), (1073741824, 2)] [(0, 3)]
    (by unfold ParameterRange.Valid; norm_num) (by decide) (half_times.1.trans half_times.2.symm)
  have hp : (actAll realArith ⟨0, 0, 1⟩ 4 (new realArith 0) [.request w 2147483648 (.linear 0)]).2 =
      halfRamp w := by
    simp only [actAll, act, hc]; rfl
  simp only [hp] at h1
  -- one block
  have hcase : RampCase 4 (halfRamp w) w 0 2147483648 [(0, 3)] [] 0 [1073741824, 2147483648] :=
    ⟨halfRamp_pending w, half_times.2, by rw [half_times.2]; decide, by intro t ht; (cases ht),
      le_refl _, by decide⟩
  have h2 := (ramp_values hcase (.inl rfl)).2 2 2147483648 rfl
  rw [if_neg (by decide), ← h1] at h2
  -- two blocks
  simp only [processAll, halfRamp_first] at h2
  have hs : isStatic realArith ⟨w / 2, [], w / 2, 1, ⟨w, 2147483648, .linear 0⟩⟩ = true := by
    unfold isStatic
    have h3 : realArith.near (1 : ℝ) realArith.one = true := near_refl 1
    have h4 : realArith.near (w / 2) realArith.zero = true := by
      change relativeEq (w / 2) 0 = true
      unfold relativeEq
      rw [decide_eq_true_iff]
      refine .inr (.inl ?_)
      rw [sub_zero, abs_of_pos (by linarith), hw]
      unfold epsilon
      norm_num
    simp [h3, h4]
  unfold process at h2
  rw [if_pos hs] at h2
  simp at h2
  linarith

theorem process_length (A : Arith V) (p : RealtimeParameter V) (t : Int) (n sr : Nat) :
    (process A p t n sr).1.length = n := by
  by_cases hs : isStatic A p = true
  · unfold process; rw [if_pos hs]; simp
  · rw [process_steps _ _ _ _ _ (by simpa using hs), steps_length]; simp

theorem processAll_length (A : Arith V) (sr : Nat) (bs : List (Int × Nat)) :
    ∀ p : RealtimeParameter V, (processAll A sr p bs).1.length = (frameTimes sr bs).length := by
  induction bs with
  | nil => intro p; rfl
  | cons b bs ih =>
    intro p
    rw [processAll, frameTimes_cons]
    simp only [List.length_append, ih, process_length, List.length_map, List.length_range]

/-! ## C22 -/

/-- C22 in full: cancelling changes that end after a time keeps those that end at or before it. -/
def CancelKeepsEarlier (V : Type) : Prop :=
  ∀ (p : RealtimeParameter V) (t : Int),
    (p.cancelEndingAfter t).changes = p.changes.filter (fun c => decide (c.endTime ≤ t))

/-- C22 is violated: after immediate changes to 1 at time 1 and to 2 at time 3, cancelling the changes
that end after 2 cancels the first one. -/
theorem C22_cancel_after_violated : ¬ CancelKeepsEarlier ℝ := by
  intro h
  have := h ⟨0, [⟨1, 1, .immediate⟩, ⟨2, 3, .immediate⟩], 0, 1, ⟨0, 0, .immediate⟩⟩ 2
  simp [cancelEndingAfter] at this

/-- C22 is violated, as seen from outside: the cancelled change is performed and the earlier one is
not. -/
theorem C22_cancel_after_observed_violated : (actAll realArith ⟨0, 0, 2⟩ 1 (new realArith 0)
    [.request 1 1 .immediate, .request 2 3 .immediate, .cancelEndingAfter 2, .block 0 1,
      .block 4294967296 1]).1 = [0, 2] := by
  have hi : ParameterAction.Immediate
      [ParameterAction.request (1 : ℝ) 1 .immediate, .request 2 3 .immediate, .cancelEndingAfter 2] := by
    intro v e m h
    simp at h
    rcases h with h | h <;> exact h.2.2
  have hp : (actAll realArith ⟨0, 0, 2⟩ 1 (new realArith 0)
      [.request 1 1 .immediate, .request 2 3 .immediate, .cancelEndingAfter 2]).2 =
      ⟨0, [⟨2, 3, .immediate⟩], 0, 1, ⟨0, 0, .immediate⟩⟩ := by
    simp [actAll, act, addChange, new, List.mergeSort, ParameterRange.clamp, cancelEndingAfter, realArith]
  have ht : frameTimes 1 [((0 : Int), 1), (4294967296, 1)] = [0, 4294967296] := by
    simp [frameTimes, Timestamp.incrementedBySamples, Timestamp.fromSamples,
      Timestamp.fromSeconds, Timestamp.roundHalfEven, Timestamp.one]
  have hc : (0 :: (frameTimes 1 (ParameterAction.blocks [ParameterAction.request (1 : ℝ) 1 .immediate,
      .request 2 3 .immediate, .cancelEndingAfter 2]) ++
      frameTimes 1 [((0 : Int), 1), (4294967296, 1)])).Pairwise (· ≤ ·) := by
    rw [ht]; simp [ParameterAction.blocks, frameTimes]
  have h := C18_one_per_frame realArith ⟨0, 0, 2⟩ 1 _ hi [(0, 1), (4294967296, 1)] hc _ hp.symm
  rw [ht] at h
  have h0 := h 0 (by decide)
  have h1 := h 1 (by decide)
  simp [taken, started, startTime, lastValue] at h0 h1
  have hall : (actAll realArith ⟨0, 0, 2⟩ 1 (new realArith 0)
    [.request 1 1 .immediate, .request 2 3 .immediate, .cancelEndingAfter 2, .block 0 1,
      .block 4294967296 1]).1 = (processAll realArith 1 ⟨0, [⟨2, 3, .immediate⟩], 0, 1,
        ⟨0, 0, .immediate⟩⟩ [(0, 1), (4294967296, 1)]).1 := by
    rw [← hp]
    simp [actAll, act, processAll]
  have hl := processAll_length realArith 1 [((0 : Int), 1), (4294967296, 1)]
    ⟨0, [⟨2, 3, .immediate⟩], 0, 1, ⟨0, 0, .immediate⟩⟩
  rw [hall]
  rw [ht] at hl
  match hv : (processAll realArith 1 ⟨0, [⟨2, 3, .immediate⟩], 0, 1,
        ⟨0, 0, .immediate⟩⟩ [(0, 1), (4294967296, 1)]).1, hl with
  | [a, b], _ =>
    rw [hv] at h0 h1
    simp at h0 h1
    rw [h0, h1]

/-- C22: `cancel_scheduled_changes_ending_after` removes some of the pending changes, keeps the order of
the others, and keeps those that end exactly at the time given. Missing for the full claim: it should
keep the changes that end before the time, and remove those that end after it. -/
theorem C22_cancel_after_partial (p : RealtimeParameter V) (t : Int) :
    (p.cancelEndingAfter t).changes.Sublist p.changes ∧
    (p.cancelEndingAfter t).changes.filter (fun c => decide (c.endTime = t)) =
      p.changes.filter (fun c => decide (c.endTime = t)) := by
  refine ⟨List.filter_sublist, ?_⟩
  unfold cancelEndingAfter
  simp only [List.filter_filter]
  apply List.filter_congr
  intro c _
  by_cases h : c.endTime = t <;> simp [h]

example : ((RealtimeParameter.mk 0 [⟨1, 1, .immediate⟩, ⟨2, 3, .immediate⟩] 0 1
    ⟨0, 0, .immediate⟩ : RealtimeParameter Nat).cancelEndingAfter 3).changes.Sublist
      [⟨1, 1, .immediate⟩, ⟨2, 3, .immediate⟩] := (C22_cancel_after_partial _ 3).1

/-- C22: after a history of immediate changes, `cancel_scheduled_changes` makes the parameter hold its
value. -/
theorem C22_cancel_all [LinearOrder V] (A : Arith V) (r : ParameterRange V) (sr : Nat)
    (as : List (ParameterAction V)) (hi : ParameterAction.Immediate as) (bs : List (Int × Nat))
    (hc : (0 :: (frameTimes sr (ParameterAction.blocks as) ++ frameTimes sr bs)).Pairwise (· ≤ ·))
    (p : RealtimeParameter V) (hp : p = (actAll A r sr (new A r.default) as).2) :
    ∀ v ∈ (processAll A sr p.cancelAll bs).1, v = p.value := by
  have hS : Settled p (frameTimes sr bs) := by
    rw [hp]; exact actAll_settled A r sr as _ _ hi (settled_new A _ _ hc)
  have hS' : Settled p.cancelAll (frameTimes sr bs) :=
    ⟨by intro c hc; (cases hc), List.Pairwise.nil, hS.over, hS.value, hS.order⟩
  have hfix : ∀ t ∈ frameTimes sr bs, step A sr p.cancelAll t = p.cancelAll := fun t ht =>
    step_idle A _ t sr (by intro c rest h; cases h) (hS'.over t ht) hS'.value
  have h1 := (processAll_steps A sr Settled (fun q t ts hq => hq.step)
    (fun q ts hq hs => hq.static hs) bs _ hS').1
  rw [h1, steps_fixed _ _ _ _ hfix]
  intro v hv
  exact (List.mem_replicate.mp hv).2

example : ∀ v ∈ (processAll realArith 1 (actAll realArith ⟨0, 0, 2⟩ 1 (new realArith 0)
    [.request 1 7 .immediate]).2.cancelAll [(5, 2)]).1, v = 0 :=
  C22_cancel_all realArith ⟨0, 0, 2⟩ 1 _ (by intro v e m h; simp at h; exact h.2.2) _ (by
    rw [two_frames.2]; simp [ParameterAction.blocks, frameTimes]) _ rfl

/-- C22: `cancel_scheduled_changes` does not stop a ramp that has begun: from its end time on the
parameter still has the target of the ramp (unless the value does not move any more). -/
theorem C22_cancel_ramp_goes_on (A : Arith V) (sr : Nat) (p : RealtimeParameter V) (t : Int) (n : Nat)
    (hs : isStatic A p.cancelAll = false)
    (ht : ∀ i, i < n → p.current.endTime ≤ Timestamp.incrementedBySamples t i sr) :
    ∀ v ∈ (process A p.cancelAll t n sr).1, v = p.current.value := by
  rw [process_steps _ _ _ _ _ hs]
  have key : ∀ (ts : List Int) (q : RealtimeParameter V), q.changes = [] →
      (∀ t ∈ ts, q.current.endTime ≤ t) → ∀ v ∈ (steps A sr q ts).1, v = q.current.value := by
    intro ts
    induction ts with
    | nil => intro q _ _ v hv; cases hv
    | cons u ts ih =>
      intro q hq ho v hv
      have hb := begin_none A q u sr q.value (by intro c rest h; rw [hq] at h; cases h)
      have hst : step A sr q u = { q with value := q.current.value } := by
        unfold step valueAtTime
        simp only [hb]
        unfold advance
        rw [if_pos (ho u List.mem_cons_self)]
      rw [steps, hst] at hv
      rcases List.mem_cons.mp hv with rfl | hv
      · rfl
      · exact ih { q with value := q.current.value } hq
          (fun x hx => ho x (List.mem_cons_of_mem _ hx)) v hv
  refine key _ _ rfl ?_
  intro u hu
  obtain ⟨i, hi, rfl⟩ := List.mem_map.mp hu
  exact ht i (List.mem_range.mp hi)

example : ∀ v ∈ (process realArith (cancelAll ⟨1 / 2, [⟨3, 9, .immediate⟩], 1 / 2, 1,
    ⟨1, 5, .linear 0⟩⟩) 7 1 4).1, v = 1 :=
  C22_cancel_ramp_goes_on realArith 4 _ 7 1 (by
    unfold isStatic cancelAll
    have : realArith.near (1 / 2 : ℝ) realArith.zero = false :=
      not_near_zero (by unfold epsilon; rw [abs_of_pos (by norm_num)]; norm_num)
    simp only [this]
    simp) (by
    intro i hi
    have : i = 0 := by omega
    subst this
    rw [incremented_zero]
    decide)

/-! ## C23 -/

/-- The changes asked for by some actions, with their values clamped. -/
def requested [LinearOrder V] (r : ParameterRange V) (as : List (ParameterAction V)) :
    List (ParameterChange V) :=
  as.filterMap (fun a => match a with
    | .request v e m => some ⟨r.clamp v, e, m⟩
    | _ => none)

/-- C23: after any sequence of requests the pending changes are the requested ones, in order of end
time, those with the same end time in the order of the requests. -/
theorem C23_queue [LinearOrder V] (A : Arith V) (r : ParameterRange V) (sr : Nat)
    (as : List (ParameterAction V)) (hr : ∀ a ∈ as, ∃ v e m, a = .request v e m)
    (p : RealtimeParameter V) (hp : p = (actAll A r sr (new A r.default) as).2) :
    p.changes.Perm (requested r as) ∧ p.changes.Pairwise (fun a b => a.endTime ≤ b.endTime) ∧
    ∀ t : Int, p.changes.filter (fun c => decide (c.endTime = t)) =
      (requested r as).filter (fun c => decide (c.endTime = t)) := by
  have key : ∀ (as : List (ParameterAction V)) (q : RealtimeParameter V),
      (∀ a ∈ as, ∃ v e m, a = ParameterAction.request v e m) →
      q.changes.Pairwise (fun a b => a.endTime ≤ b.endTime) →
      (actAll A r sr q as).2.changes.Perm (q.changes ++ requested r as) ∧
      (actAll A r sr q as).2.changes.Pairwise (fun a b => a.endTime ≤ b.endTime) ∧
      ∀ t : Int, (actAll A r sr q as).2.changes.filter (fun c => decide (c.endTime = t)) =
        (q.changes ++ requested r as).filter (fun c => decide (c.endTime = t)) := by
    intro as
    induction as with
    | nil => intro q _ hs; exact ⟨by simp [actAll, requested], hs, by simp [actAll, requested]⟩
    | cons a as ih =>
      intro q hr hs
      obtain ⟨v, e, m, rfl⟩ := hr a List.mem_cons_self
      have hreq : requested r (.request v e m :: as) = ⟨r.clamp v, e, m⟩ :: requested r as := rfl
      obtain ⟨h1, h2, h3⟩ := ih (q.addChange ⟨r.clamp v, e, m⟩)
        (fun a ha => hr a (List.mem_cons_of_mem _ ha)) (addChange_sorted q _)
      have hact : (actAll A r sr q (.request v e m :: as)).2 =
          (actAll A r sr (q.addChange ⟨r.clamp v, e, m⟩) as).2 := rfl
      rw [hact, hreq]
      refine ⟨?_, h2, ?_⟩
      · refine h1.trans ?_
        have := (addChange_perm q ⟨r.clamp v, e, m⟩).append_right (requested r as)
        simpa using this
      · intro t
        rw [h3 t, List.filter_append, addChange_stable, ← List.filter_append]
        simp
  have := key as (new A r.default) hr List.Pairwise.nil
  rw [← hp] at this
  simpa [new] using this

example : (actAll realArith ⟨0, 0, 2⟩ 1 (new realArith 0)
    [.request 1 7 .immediate, .request 2 3 (.linear 1)]).2.changes.Pairwise
      (fun a b => a.endTime ≤ b.endTime) :=
  (C23_queue realArith ⟨0, 0, 2⟩ 1 _ (by simp) _ rfl).2.1

/-- What is pending stays in order when frames are rendered. -/
theorem steps_suffix (A : Arith V) (sr : Nat) (ts : List Int) : ∀ p : RealtimeParameter V,
    (steps A sr p ts).2.changes <:+ p.changes := by
  induction ts with
  | nil => intro p; exact List.suffix_refl _
  | cons t ts ih =>
    intro p
    rw [steps]
    refine (ih _).trans ?_
    rw [step_changes]
    split
    · exact List.nil_suffix
    · rename_i c rest hc
      rw [hc]
      split
      · exact List.suffix_cons _ _
      · exact List.suffix_refl _

theorem process_suffix (A : Arith V) (p : RealtimeParameter V) (t : Int) (n sr : Nat) :
    (process A p t n sr).2.changes <:+ p.changes := by
  by_cases hs : isStatic A p = true
  · unfold process; rw [if_pos hs]
  · rw [process_steps _ _ _ _ _ (by simpa using hs)]; exact steps_suffix A sr _ p

/-- C23: after any history of requests, cancellations and blocks the pending changes are in order of end
time. -/
theorem C23_sorted [LinearOrder V] (A : Arith V) (r : ParameterRange V) (sr : Nat)
    (as : List (ParameterAction V)) :
    (actAll A r sr (new A r.default) as).2.changes.Pairwise (fun a b => a.endTime ≤ b.endTime) := by
  have key : ∀ (as : List (ParameterAction V)) (q : RealtimeParameter V),
      q.changes.Pairwise (fun a b => a.endTime ≤ b.endTime) →
      (actAll A r sr q as).2.changes.Pairwise (fun a b => a.endTime ≤ b.endTime) := by
    intro as
    induction as with
    | nil => intro q h; exact h
    | cons a as ih =>
      intro q h
      rw [actAll]
      refine ih _ ?_
      cases a with
      | request v e m => exact addChange_sorted q _
      | cancel => exact List.Pairwise.nil
      | cancelEndingAfter t => exact h.filter _
      | block t n => exact h.sublist (process_suffix A q t n sr).sublist
  exact key as _ List.Pairwise.nil

/-! ## C24 -/

/-- C24: if the pending changes have all begun and ended at a time, then from that time on one change is
performed per frame, and when as many frames have been rendered as changes were pending the value is and
remains that of the last one, which has the latest end time. Nothing is assumed of the arithmetic or of
the changes before. -/
theorem C24_settles [LinearOrder V] (A : Arith V) (r : ParameterRange V) (sr : Nat)
    (as : List (ParameterAction V)) (p : RealtimeParameter V)
    (hp : p = (actAll A r sr (new A r.default) as).2) (hne : p.changes ≠ []) (T : Int)
    (hdue : ∀ c ∈ p.changes, c.startTime ≤ T ∧ c.endTime ≤ T) (bs : List (Int × Nat))
    (ht : ∀ t ∈ frameTimes sr bs, T ≤ t) :
    ∃ c ∈ p.changes, (∀ d ∈ p.changes, d.endTime ≤ c.endTime) ∧
      ∀ j, j < (frameTimes sr bs).length → p.changes.length ≤ j + 1 →
        (processAll A sr p bs).1[j]? = some c.value := by
  have hO : Over T p := ⟨hdue, fun h => absurd h hne⟩
  have hall := (processAll_steps A sr (fun q ts => Over T q ∧ ∀ t ∈ ts, T ≤ t)
    (fun q t ts hq => ⟨(hq.1.step (hq.2 t List.mem_cons_self)).1,
      fun u hu => hq.2 u (List.mem_cons_of_mem _ hu)⟩)
    (by
      intro q ts hq hs t hm
      unfold isStatic at hs
      simp only [Bool.and_eq_true, List.isEmpty_iff] at hs
      obtain ⟨d1, d2⟩ := hq.1.done hs.2
      exact step_idle A q t sr (by intro c rest h; rw [hs.2] at h; cases h)
        (le_trans d1 (hq.2 t hm)) d2)
    bs p ⟨hO, ht⟩).1
  refine ⟨p.changes.getLast hne, List.getLast_mem hne, ?_, ?_⟩
  · have hsort : p.changes.Pairwise (fun a b => a.endTime ≤ b.endTime) := by
      rw [hp]; exact C23_sorted A r sr as
    intro d hd
    rw [← List.dropLast_append_getLast hne] at hd hsort
    rcases List.mem_append.mp hd with h | h
    · exact (List.pairwise_append.mp hsort).2.2 d h _ (by simp)
    · rw [List.mem_singleton] at h; rw [h]
  · intro j hj hl
    rw [hall, hO.steps _ ht j hj, List.take_of_length_le hl]
    unfold lastValue
    rw [List.getLast?_eq_getLast_of_ne_nil hne]
    rfl

example : ∃ c ∈ (actAll realArith ⟨0, 0, 2⟩ 1 (new realArith 0)
    [.request 1 3 .immediate, .request 2 4 (.linear 1)]).2.changes,
      (processAll realArith 1 (actAll realArith ⟨0, 0, 2⟩ 1 (new realArith 0)
    [.request 1 3 .immediate, .request 2 4 (.linear 1)]).2 [(5, 2)]).1[1]? = some c.value := by
  have hch : (actAll realArith ⟨0, 0, 2⟩ 1 (new realArith 0)
    [.request 1 3 .immediate, .request 2 4 (.linear 1)]).2.changes =
      [⟨1, 3, .immediate⟩, ⟨2, 4, .linear 1⟩] := by
    simp [actAll, act, addChange, new, List.mergeSort, ParameterRange.clamp]
  obtain ⟨c, h1, _, h2⟩ := C24_settles realArith ⟨0, 0, 2⟩ 1
    [.request 1 3 .immediate, .request 2 4 (.linear 1)] _ rfl (by rw [hch]; simp) 5
    (by rw [hch]; intro c hc; simp at hc; rcases hc with rfl | rfl <;> simp [startTime])
    [(5, 2)] (by rw [two_frames.2]; simp)
  exact ⟨c, h1, h2 1 (by rw [two_frames.2]; simp) (by rw [hch]; simp)⟩

/-! ## C61 -/

/-- C61 in full: if at the time of a block's first frame some pending ramp is between its start and end
times, and no change is pending towards the present value, then the first frame has a new value. -/
def RampsStartOnTime : Prop :=
  ∀ (r : ParameterRange ℝ) (sr : Nat) (as : List (ParameterAction ℝ)) (t : Int) (n : Nat)
    (p : RealtimeParameter ℝ), r.Valid → 0 < sr →
    (∀ a ∈ as, ∃ v e s, a = .request v e (.linear s)) →
    p = (actAll realArith r sr (new realArith r.default) as).2 →
    (∃ c ∈ p.changes, c.startTime ≤ t ∧ t < c.endTime) →
    (∀ c ∈ p.changes, c.value ≠ p.value ∧ t ≤ c.endTime) → 0 < n →
    ∃ v, (process realArith p t n sr).1[0]? = some v ∧ v ≠ p.value

theorem process_first (A : Arith V) (p : RealtimeParameter V) (t : Int) (n sr : Nat) (hn : 0 < n)
    (hs : isStatic A p = false) : (process A p t n sr).1[0]? = some (step A sr p t).value := by
  rw [process_steps _ _ _ _ _ hs]
  obtain ⟨m, rfl⟩ : ∃ m, n = m + 1 := ⟨n - 1, by omega⟩
  rw [List.range_succ_eq_map, List.map_cons, steps]
  simp [incremented_zero]

/-- C61: it holds if the changes that end earlier also start earlier. Missing for the full claim:
overlapping ramps of which the one that ends first starts last, for which it fails. -/
theorem C61_start_partial (r : ParameterRange ℝ) (sr : Nat) (hsr : 0 < sr)
    (as : List (ParameterAction ℝ)) (t : Int) (n : Nat) (p : RealtimeParameter ℝ)
    (hlin : ∀ a ∈ as, ∃ v e s, a = .request v e (.linear s))
    (hp : p = (actAll realArith r sr (new realArith r.default) as).2)
    (hex : ∃ c ∈ p.changes, c.startTime ≤ t ∧ t < c.endTime)
    (hall : ∀ c ∈ p.changes, c.value ≠ p.value ∧ t ≤ c.endTime) (hn : 0 < n)
    (hord : p.changes.Pairwise (fun a b => a.startTime ≤ b.startTime)) :
    ∃ v, (process realArith p t n sr).1[0]? = some v ∧ v ≠ p.value := by
  obtain ⟨c, hc, hct⟩ := hex
  cases hch : p.changes with
  | nil => rw [hch] at hc; cases hc
  | cons d rest =>
    have hs : isStatic realArith p = false := by unfold isStatic; rw [hch]; simp
    refine ⟨_, process_first realArith p t n sr hn hs, ?_⟩
    have hd : d.startTime ≤ t := by
      rw [hch] at hc hord
      rcases List.mem_cons.mp hc with rfl | h
      · exact hct.1
      · exact le_trans ((List.pairwise_cons.mp hord).1 c h) hct.1
    have hdm : d ∈ p.changes := by rw [hch]; exact List.mem_cons_self
    obtain ⟨s, hm⟩ : ∃ s, d.method = .linear s := by
      have h1 := (C23_queue realArith r sr as (fun a ha => by
        obtain ⟨v, e, s, h⟩ := hlin a ha
        exact ⟨v, e, _, h⟩) p hp).1.mem_iff.mp hdm
      unfold requested at h1
      obtain ⟨a, ha, hae⟩ := List.mem_filterMap.mp h1
      obtain ⟨v, e, s, rfl⟩ := hlin a ha
      injection hae with hae
      exact ⟨s, by rw [← hae]⟩
    obtain ⟨hv, he⟩ := hall d hdm
    have hb : begin realArith p t sr p.value =
        { p with increment := (d.value - p.value) / rampLength t d.endTime sr, coefficient := 1,
                 current := d, changes := rest } := by
      unfold begin
      rw [hch]
      simp only [hm]
      unfold startTime at hd
      rw [hm] at hd
      rw [if_pos hd, slope_real]
      rfl
    unfold step valueAtTime
    simp only [hb]
    unfold advance
    simp only
    split
    · exact hv
    · rename_i hlt
      change p.value * 1 + (d.value - p.value) / rampLength t d.endTime sr ≠ p.value
      have hD := rampLength_ne hsr (by omega : t < d.endTime)
      have : (d.value - p.value) / rampLength t d.endTime sr ≠ 0 :=
        div_ne_zero (sub_ne_zero.mpr hv) hD
      intro h
      apply this
      linarith

example : ∃ v, (process realArith (actAll realArith ⟨0, 0, 2⟩ 1 (new realArith 0)
    [.request 1 9 (.linear 0), .request 2 12 (.linear 4)]).2 3 2 1).1[0]? = some v ∧ v ≠ 0 := by
  have hch : (actAll realArith ⟨0, 0, 2⟩ 1 (new realArith 0)
    [.request 1 9 (.linear 0), .request 2 12 (.linear 4)]).2.changes =
      [⟨1, 9, .linear 0⟩, ⟨2, 12, .linear 4⟩] := by
    simp [actAll, act, addChange, new, List.mergeSort, ParameterRange.clamp]
  have hv : (actAll realArith ⟨0, 0, 2⟩ 1 (new realArith 0)
    [.request 1 9 (.linear 0), .request 2 12 (.linear 4)]).2.value = 0 := rfl
  have := C61_start_partial ⟨0, 0, 2⟩ 1 (by decide)
    [.request 1 9 (.linear 0), .request 2 12 (.linear 4)] 3 2 _ (by simp) rfl
    ⟨⟨1, 9, .linear 0⟩, by rw [hch]; simp, by simp [startTime]⟩
    (by rw [hch, hv]; intro c hc; simp at hc; rcases hc with rfl | rfl <;> norm_num) (by decide)
    (by rw [hch]; simp [startTime])
  rwa [hv] at this

/-- C61 is violated: a ramp from time 0 to 20 does not start at time 0 if a ramp from 5 to 10 is pending
as well. -/
theorem C61_start_violated : ¬ RampsStartOnTime := by
  intro h
  have hch : (actAll realArith ⟨0, 0, 2⟩ 1 (new realArith 0)
    [.request 1 20 (.linear 0), .request 2 10 (.linear 5)]).2 =
      ⟨0, [⟨2, 10, .linear 5⟩, ⟨1, 20, .linear 0⟩], 0, 1, ⟨0, 0, .immediate⟩⟩ := by
    simp [actAll, act, addChange, new, List.mergeSort, ParameterRange.clamp, realArith]
  obtain ⟨v, h1, h2⟩ := h ⟨0, 0, 2⟩ 1 [.request 1 20 (.linear 0), .request 2 10 (.linear 5)] 0 1 _
    (by unfold ParameterRange.Valid; norm_num) (by decide) (by simp) hch.symm
    ⟨⟨1, 20, .linear 0⟩, by simp, by simp [startTime]⟩
    (by intro c hc; simp at hc; rcases hc with rfl | rfl <;> norm_num) (by decide)
  rw [process_first _ _ _ _ _ (by decide) (by unfold isStatic; simp)] at h1
  injection h1 with h1
  apply h2
  rw [← h1, step_idle]
  · intro c rest hc
    injection hc with hc _
    rw [← hc]
    simp [startTime]
  · decide
  · rfl

end RealtimeParameter
end Rawdio
