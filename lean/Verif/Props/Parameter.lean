import Verif.Lemmas.Parameter2

/-!
# Properties of parameters (C18 to C24)

Blocks are given by their time and number of frames; `processAll` renders block after block and yields
the value of every frame.  Where `A : Arith V` is arbitrary nothing is assumed of the arithmetic.
-/

namespace Rawdio
namespace RealtimeParameter

open ParameterChange

variable {V : Type}

/-! ## C18 -/

/-- C18 in full: in a parameter with any history of immediate changes, every frame has the value of the
latest change whose time is not after the frame's time. -/
def ImmediateOnTime (V : Type) [LinearOrder V] (A : Arith V) : Prop :=
  ∀ (r : ParameterRange V) (sr : Nat) (as : List (ParameterAction V)) (bs : List (Int × Nat)),
    ParameterAction.Immediate as →
    (0 :: (frameTimes sr (ParameterAction.blocks as) ++ frameTimes sr bs)).Pairwise (· ≤ ·) →
    ∀ (j : Nat) (t : Int), (frameTimes sr bs)[j]? = some t →
      (processAll A sr (actAll A r sr (new A r.default) as).2 bs).1[j]? =
        some (lastValue (actAll A r sr (new A r.default) as).2.value
          (ended (actAll A r sr (new A r.default) as).2.changes t))

/-- C18: exactly one change is taken up per frame, in order of time, as long as any is due. -/
theorem C18_one_per_frame [LinearOrder V] (A : Arith V) (r : ParameterRange V) (sr : Nat)
    (as : List (ParameterAction V)) (hi : ParameterAction.Immediate as) (bs : List (Int × Nat))
    (hc : (0 :: (frameTimes sr (ParameterAction.blocks as) ++ frameTimes sr bs)).Pairwise (· ≤ ·))
    (p : RealtimeParameter V) (hp : p = (actAll A r sr (new A r.default) as).2) (j : Nat)
    (hj : j < (frameTimes sr bs).length) :
    (processAll A sr p bs).1[j]? =
      some (lastValue p.value (p.changes.take (taken p.changes 0 ((frameTimes sr bs).take (j + 1))))) := by
  have hS : Settled p (frameTimes sr bs) := by
    rw [hp]; exact actAll_settled A r sr as _ _ hi (settled_new A _ _ hc)
  have h1 := (processAll_steps A sr Settled (fun q t ts hq => hq.step)
    (fun q ts hq hs => hq.static hs) bs p hS).1
  rw [h1]
  exact steps_immediate A sr p.changes p.value (frameTimes sr bs) 0 p hS rfl rfl
    (by intro t _ c hc; rw [List.take_zero] at hc; cases hc) j hj

/-- C18: if at most one change falls due per frame, every frame has the value of the latest change
whose time is not after the frame's time, or the value the parameter had. Missing for the full claim:
several changes due at the same frame. -/
theorem C18_immediate_partial [LinearOrder V] (A : Arith V) (r : ParameterRange V) (sr : Nat)
    (as : List (ParameterAction V)) (hi : ParameterAction.Immediate as) (bs : List (Int × Nat))
    (hc : (0 :: (frameTimes sr (ParameterAction.blocks as) ++ frameTimes sr bs)).Pairwise (· ≤ ·))
    (p : RealtimeParameter V) (hp : p = (actAll A r sr (new A r.default) as).2)
    (hone : OnePerFrame p.changes 0 (frameTimes sr bs)) (j : Nat) (t : Int)
    (hj : (frameTimes sr bs)[j]? = some t) :
    (processAll A sr p bs).1[j]? = some (lastValue p.value (ended p.changes t)) := by
  have hS : Settled p (frameTimes sr bs) := by
    rw [hp]; exact actAll_settled A r sr as _ _ hi (settled_new A _ _ hc)
  have hlt : j < (frameTimes sr bs).length := by
    by_contra h
    rw [List.getElem?_eq_none (by omega)] at hj
    cases hj
  rw [C18_one_per_frame A r sr as hi bs hc p hp j hlt, ended_sorted hS.imm hS.sorted,
    taken_on_time hS.imm hS.sorted _ 0 hone hS.order (fun _ _ => Nat.zero_le _) j t hj]

/-- Two changes, at 1 s and at 2 s, and three frames at one frame per second. -/
example : ∃ (as : List (ParameterAction ℝ)) (bs : List (Int × Nat)),
    ParameterAction.Immediate as ∧
    (0 :: (frameTimes 1 (ParameterAction.blocks as) ++ frameTimes 1 bs)).Pairwise (· ≤ ·) ∧
    (frameTimes 1 bs).length = 3 ∧ OnePerFrame
      (actAll realArith ⟨0, 0, 1⟩ 1 (new realArith 0) as).2.changes 0 (frameTimes 1 bs) := by
  have ht : frameTimes 1 [((0 : Int), 3)] = [0, 4294967296, 8589934592] := by
    simp [frameTimes, List.range_succ, Timestamp.incrementedBySamples, Timestamp.fromSamples,
      Timestamp.fromSeconds, Timestamp.roundHalfEven, Timestamp.one]
    norm_num
  refine ⟨[.request 1 4294967296 .immediate, .request (1 / 2) 8589934592 .immediate], [(0, 3)], ?_,
    ?_, ?_, ?_⟩
  · intro v e m hm
    simp at hm
    rcases hm with h | h <;> exact h.2.2
  · rw [ht]; decide
  · rw [ht]; rfl
  · rw [ht]
    simp only [actAll, act, addChange, new, List.nil_append, List.mergeSort_singleton]
    have : ∀ a b : ParameterChange ℝ, [a].append [b] = [a, b] := fun _ _ => rfl
    simp [List.mergeSort, OnePerFrame, ended]

/-- C18 is violated: after two requests to set the value now, the first frame of the next block has the
value of the first request. -/
theorem C18_immediate_violated : ¬ ImmediateOnTime ℝ realArith := by
  intro h
  have ht : frameTimes 1 [((0 : Int), 1)] = [0] := by
    simp [frameTimes, Timestamp.incrementedBySamples, Timestamp.fromSamples,
      Timestamp.fromSeconds, Timestamp.roundHalfEven]
  obtain ⟨as, has⟩ : ∃ as : List (ParameterAction ℝ),
      as = [.request 1 0 .immediate, .request 2 0 .immediate] := ⟨_, rfl⟩
  have hi : ParameterAction.Immediate as := by
    intro v e m hm
    rw [has] at hm
    simp at hm
    rcases hm with h | h <;> exact h.2.2
  have hb : ParameterAction.blocks as = [] := by rw [has]; rfl
  have hc : (0 :: (frameTimes 1 (ParameterAction.blocks as) ++
      frameTimes 1 [((0 : Int), 1)])).Pairwise (· ≤ ·) := by
    rw [ht, hb]; decide
  obtain ⟨p, hp⟩ : ∃ p, p = (actAll realArith ⟨0, 0, 2⟩ 1 (new realArith 0) as).2 := ⟨_, rfl⟩
  have hch : p.changes = [⟨1, 0, .immediate⟩, ⟨2, 0, .immediate⟩] := by
    rw [hp, has]
    simp [actAll, act, addChange, new, List.mergeSort, ParameterRange.clamp]
  have h1 := h ⟨0, 0, 2⟩ 1 as [(0, 1)] hi hc 0 0 (by rw [ht]; rfl)
  have h2 := C18_one_per_frame realArith ⟨0, 0, 2⟩ 1 as hi [(0, 1)] hc p hp 0 (by rw [ht]; decide)
  rw [← hp, h2, hch, ht] at h1
  simp [taken, started, startTime, ended, lastValue] at h1

/-! ## C19 -/

/-- A parameter in which only a linear ramp is pending, rendered from the first frame of the ramp on
(after some earlier frames `pre`). -/
structure RampCase (sr : Nat) (p : RealtimeParameter V) (target : V) (startTime endTime : Int)
    (bs : List (Int × Nat)) (pre : List Int) (first : Int) (rest : List Int) : Prop where
  pending : p.changes = [⟨target, endTime, .linear startTime⟩]
  times : frameTimes sr bs = pre ++ first :: rest
  ordered : (frameTimes sr bs).Pairwise (· ≤ ·)
  before : ∀ t ∈ pre, t < startTime ∧ p.current.endTime ≤ t ∧ p.value = p.current.value
  start : startTime ≤ first
  finish : first < endTime

/-- What happens in a ramp: equal steps up to the end time, the target from then on. -/
theorem ramp_values {sr : Nat} {p : RealtimeParameter ℝ} {w : ℝ} {s e : Int} {bs : List (Int × Nat)}
    {pre : List Int} {t0 : Int} {rest : List Int} (h : RampCase sr p w s e bs pre t0 rest)
    (hinc : bs.length = 1 ∨ epsilon < |(w - p.value) / rampLength t0 e sr|) :
    (∀ j, j < pre.length → (processAll realArith sr p bs).1[j]? = some p.value) ∧
    ∀ (j : Nat) (t : Int), (t0 :: rest)[j]? = some t →
      (processAll realArith sr p bs).1[pre.length + j]? =
        some (if t < e then p.value + (j + 1) * ((w - p.value) / rampLength t0 e sr) else w) := by
  obtain ⟨inc, hincdef⟩ : ∃ inc, inc = (w - p.value) / rampLength t0 e sr := ⟨_, rfl⟩
  rw [← hincdef] at hinc ⊢
  -- the state once the ramp has begun
  have hpre : ∀ t ∈ pre, step realArith sr p t = p := by
    intro t ht
    obtain ⟨b1, b2, b3⟩ := h.before t ht
    refine step_idle _ _ _ _ ?_ b2 b3
    intro c rest' hc
    rw [h.pending] at hc
    injection hc with h1 h2
    subst h1
    exact b1
  obtain ⟨q, hq⟩ : ∃ q : RealtimeParameter ℝ, q = { p with
    changes := [], increment := inc, coefficient := 1, current := ⟨w, e, .linear s⟩ } := ⟨_, rfl⟩
  have hbegin : begin realArith p t0 sr p.value = q := by
    unfold begin
    rw [h.pending]
    simp only
    rw [if_pos h.start, slope_real, ← hincdef, hq]
    rfl
  have hqb : ∀ t, begin realArith q t sr q.value = q := by
    intro t
    refine begin_none _ _ _ _ _ ?_
    intro c rest' hc
    rw [hq] at hc
    cases hc
  have hfirst : step realArith sr p t0 = step realArith sr q t0 := by
    have hv : q.value = p.value := by rw [hq]
    have h2 : begin realArith q t0 sr p.value = q := by
      have := hqb t0
      rwa [hv] at this
    unfold step valueAtTime
    rw [hv]
    simp only [hbegin, h2]
  have hsteps : steps realArith sr p (frameTimes sr bs) =
      (List.replicate pre.length p.value ++ (steps realArith sr q (t0 :: rest)).1,
        (steps realArith sr q (t0 :: rest)).2) := by
    rw [h.times, steps_append, steps_fixed _ _ _ _ hpre]
    simp only [steps]
    rw [hfirst]
  have hstepq : ∀ x : RealtimeParameter ℝ, x.changes = [] → x.increment = inc → ∀ t,
      (step realArith sr x t).changes = [] ∧ (step realArith sr x t).increment = inc := by
    intro x h1 h2 t
    have : begin realArith x t sr x.value = x :=
      begin_none _ _ _ _ _ (by intro c rest' hc; rw [h1] at hc; cases hc)
    unfold step valueAtTime
    simp only [this]
    exact ⟨h1, h2⟩
  have hall : processAll realArith sr p bs = steps realArith sr p (frameTimes sr bs) := by
    rcases hinc with hone | hbig
    · match bs, hone with
      | [b], _ =>
        rw [show b = (b.1, b.2) from rfl, processAll_one, process_steps]
        · simp [frameTimes]
        · unfold isStatic; rw [h.pending]; simp
    · refine (processAll_steps realArith sr
        (fun x ts => (x = p ∧ ∃ pre', (∀ t ∈ pre', t ∈ pre) ∧ ts = pre' ++ t0 :: rest) ∨
          (x.changes = [] ∧ x.increment = inc)) ?_ ?_ bs p (.inl ⟨rfl, pre, fun _ h => h, h.times⟩)).1
      · rintro x t ts (⟨rfl, pre', g1, g2⟩ | ⟨g1, g2⟩)
        · cases pre' with
          | nil =>
            injection g2 with g2 g3
            subst g2
            rw [hfirst]
            exact .inr (hstepq q (by rw [hq]) (by rw [hq]) t)
          | cons u pre' =>
            injection g2 with g2 g3
            subst g2
            rw [hpre t (g1 t List.mem_cons_self)]
            exact .inl ⟨rfl, pre', fun y hy => g1 y (List.mem_cons_of_mem _ hy), g3⟩
        · exact .inr (hstepq x g1 g2 t)
      · rintro x ts (⟨rfl, _⟩ | ⟨g1, g2⟩) hs
        · unfold isStatic at hs
          rw [h.pending] at hs
          simp at hs
        · unfold isStatic at hs
          rw [g2] at hs
          have : realArith.near inc realArith.zero = false := not_near_zero hbig
          rw [this] at hs
          simp at hs
  rw [hall, hsteps]
  constructor
  · intro j hj
    simp only
    rw [List.getElem?_append_left (by simpa using hj), List.getElem?_replicate, if_pos hj]
  · intro j t ht
    simp only
    have ho : (t0 :: rest).Pairwise (· ≤ ·) := by
      have := h.ordered
      rw [h.times] at this
      exact (List.pairwise_append.mp this).2.1
    rw [List.getElem?_append_right (by simp), List.length_replicate, Nat.add_sub_cancel_left,
      steps_ramp sr inc (t0 :: rest) q (by rw [hq]) (by rw [hq]) (by rw [hq]) ho j t ht]
    rw [hq]

/-- C19: a linear ramp moves in equal steps until its end time and has exactly the target value from
its end time on, across any blocks. Missing for the full claim: that the values stay between the
starting value and the target, and ramps so flat that a step is within the tolerance of the comparison
with 0 (see `C21_split_violated`) when rendered in several blocks. -/
theorem C19_linear_ramp_partial (sr : Nat) (p : RealtimeParameter ℝ) (w : ℝ) (s e : Int)
    (bs : List (Int × Nat)) (pre : List Int) (t0 : Int) (rest : List Int)
    (h : RampCase sr p w s e bs pre t0 rest)
    (hinc : bs.length = 1 ∨ epsilon < |(w - p.value) / rampLength t0 e sr|) :
    ∃ step : ℝ, (∀ j, j < pre.length → (processAll realArith sr p bs).1[j]? = some p.value) ∧
      (∀ (j : Nat) (t : Int), (t0 :: rest)[j]? = some t → t < e →
        (processAll realArith sr p bs).1[pre.length + j]? = some (p.value + (j + 1) * step)) ∧
      (∀ (j : Nat) (t : Int), (t0 :: rest)[j]? = some t → e ≤ t →
        (processAll realArith sr p bs).1[pre.length + j]? = some w) := by
  obtain ⟨h1, h2⟩ := ramp_values h hinc
  refine ⟨(w - p.value) / rampLength t0 e sr, h1, ?_, ?_⟩
  · intro j t ht hlt
    rw [h2 j t ht, if_pos hlt]
  · intro j t ht hle
    rw [h2 j t ht, if_neg (by omega)]

theorem between_of_fraction {v w x : ℝ} (h0 : 0 ≤ x) (h1 : x ≤ 1) :
    min v w ≤ v + x * (w - v) ∧ v + x * (w - v) ≤ max v w := by
  rcases le_total v w with h | h
  · rw [min_eq_left h, max_eq_right h]
    constructor <;> nlinarith
  · rw [min_eq_right h, max_eq_left h]
    constructor <;> nlinarith

/-- The frames of a block that come before a time. -/
theorem frame_before {sr : Nat} (hsr : 0 < sr) {t0 e : Int} {j : Nat}
    (h : Timestamp.incrementedBySamples t0 j sr < e) : (j : ℝ) < rampLength t0 e sr := by
  have he := Timestamp.fromSamples_error (j : ℚ) sr
  unfold Timestamp.incrementedBySamples at h
  have h1 : Timestamp.fromSamples (j : ℚ) sr ≤ e - t0 - 1 := by omega
  have h2 : ((Timestamp.fromSamples (j : ℚ) sr : Int) : ℚ) ≤ ((e - t0 : Int) : ℚ) - 1 := by
    have : ((Timestamp.fromSamples (j : ℚ) sr : Int) : ℚ) ≤ ((e - t0 - 1 : Int) : ℚ) := by
      exact_mod_cast h1
    push_cast at this ⊢
    exact this
  rw [abs_le] at he
  have h3 : (j : ℚ) / sr * Timestamp.one < ((e - t0 : Int) : ℚ) := by linarith [he.1]
  have hp : (0 : ℚ) < sr := by exact_mod_cast hsr
  have h4 : (j : ℚ) < ((e - t0 : Int) : ℚ) * sr / 2 ^ 32 := by
    unfold Timestamp.one at h3
    rw [lt_div_iff₀ (by norm_num)]
    have : (j : ℚ) / sr * 4294967296 * sr < ((e - t0 : Int) : ℚ) * sr :=
      mul_lt_mul_of_pos_right h3 hp
    have e1 : (j : ℚ) / sr * 4294967296 * sr = j * 2 ^ 32 := by field_simp; norm_num
    rw [e1] at this
    exact this
  unfold rampLength
  exact_mod_cast h4

theorem frameTimes_one (sr : Nat) (t : Int) (n : Nat) : frameTimes sr [(t, n)] =
    (List.range n).map (fun i => Timestamp.incrementedBySamples t i sr) := by
  simp [frameTimes]

theorem incremented_zero (t : Int) (sr : Nat) : Timestamp.incrementedBySamples t 0 sr = t := by
  simp [Timestamp.incrementedBySamples, Timestamp.fromSamples, Timestamp.fromSeconds,
    Timestamp.roundHalfEven]

/-- The values of a ramp that begins with a block, as fractions of the way. -/
theorem ramp_block {sr n : Nat} (hsr : 0 < sr) {p : RealtimeParameter ℝ} {w : ℝ} {s e t0 : Int}
    {rest : List Int} (h : RampCase sr p w s e [(t0, n)] [] t0 rest) (v : ℝ)
    (hv : v ∈ (processAll realArith sr p [(t0, n)]).1) :
    v = w ∨ ∃ j : Nat, (j : ℝ) < rampLength t0 e sr ∧
      v = p.value + ((j + 1) / rampLength t0 e sr) * (w - p.value) := by
  obtain ⟨_, h2⟩ := ramp_values h (.inl rfl)
  obtain ⟨j, hj⟩ := List.getElem?_of_mem hv
  have hlen : (processAll realArith sr p [(t0, n)]).1.length = (frameTimes sr [(t0, n)]).length := by
    rw [processAll_one, process_steps, steps_length, frameTimes_one]
    unfold isStatic; rw [h.pending]; simp
  have hjl : j < (frameTimes sr [(t0, n)]).length := by
    rw [← hlen]
    by_contra hcon
    rw [List.getElem?_eq_none (by omega)] at hj
    cases hj
  have ht : (t0 :: rest)[j]? = some (Timestamp.incrementedBySamples t0 j sr) := by
    have := h.times
    rw [List.nil_append] at this
    rw [← this, frameTimes_one, List.getElem?_map, List.getElem?_range (by
      rw [frameTimes_one] at hjl; simpa using hjl)]
    rfl
  have h3 := h2 j _ ht
  rw [List.length_nil, Nat.zero_add, hj] at h3
  injection h3 with h3
  by_cases hlt : Timestamp.incrementedBySamples t0 j sr < e
  · rw [if_pos hlt] at h3
    exact .inr ⟨j, frame_before hsr hlt, by rw [h3]; ring⟩
  · rw [if_neg hlt] at h3
    exact .inl h3

/-- C19: a ramp that begins with a block and whose length is a whole number of samples stays between the
starting value and the target during that block. -/
theorem C19_whole_ramp_between (sr n : Nat) (hsr : 0 < sr) (p : RealtimeParameter ℝ) (w : ℝ)
    (s e t0 : Int) (rest : List Int) (h : RampCase sr p w s e [(t0, n)] [] t0 rest) (N : Nat)
    (hN : rampLength t0 e sr = N) :
    ∀ v ∈ (processAll realArith sr p [(t0, n)]).1, min p.value w ≤ v ∧ v ≤ max p.value w := by
  intro v hv
  rcases ramp_block hsr h v hv with rfl | ⟨j, hj, rfl⟩
  · exact ⟨min_le_right _ _, le_max_right _ _⟩
  · rw [hN] at hj ⊢
    have hj' : j < N := by exact_mod_cast hj
    have hN0 : (0 : ℝ) < N := by exact_mod_cast (by omega : 0 < N)
    refine between_of_fraction (by positivity) ?_
    rw [div_le_one hN0]
    exact_mod_cast hj'

/-- C19: in the block with which it begins a ramp goes beyond the target by less than one of its
steps. -/
theorem C19_overshoot_bound (sr n : Nat) (hsr : 0 < sr) (p : RealtimeParameter ℝ) (w : ℝ)
    (s e t0 : Int) (rest : List Int) (h : RampCase sr p w s e [(t0, n)] [] t0 rest) :
    ∀ v ∈ (processAll realArith sr p [(t0, n)]).1,
      |v - p.value| ≤ |w - p.value| + |w - p.value| / rampLength t0 e sr := by
  have hD : 0 < rampLength t0 e sr := by
    have := h.finish
    have h1 : (0 : ℝ) < ((e - t0 : Int) : ℝ) := by exact_mod_cast (by omega : 0 < e - t0)
    have h2 : (0 : ℝ) < sr := by exact_mod_cast hsr
    unfold rampLength
    positivity
  intro v hv
  have ha := abs_nonneg (w - p.value)
  rcases ramp_block hsr h v hv with rfl | ⟨j, hj, rfl⟩
  · have : 0 ≤ |v - p.value| / rampLength t0 e sr := by positivity
    linarith
  · have e1 : p.value + (j + 1) / rampLength t0 e sr * (w - p.value) - p.value =
        (j + 1) / rampLength t0 e sr * (w - p.value) := by ring
    rw [e1, abs_mul, abs_of_nonneg (by positivity : 0 ≤ ((j : ℝ) + 1) / rampLength t0 e sr)]
    have h1 : ((j : ℝ) + 1) / rampLength t0 e sr ≤ 1 + 1 / rampLength t0 e sr := by
      rw [add_div]
      have : (j : ℝ) / rampLength t0 e sr ≤ 1 := by rw [div_le_one hD]; exact hj.le
      linarith
    calc (j + 1) / rampLength t0 e sr * |w - p.value|
        ≤ (1 + 1 / rampLength t0 e sr) * |w - p.value| := mul_le_mul_of_nonneg_right h1 ha
      _ = |w - p.value| + |w - p.value| / rampLength t0 e sr := by ring

/-- The claim that a ramp stays between its end points. -/
def RampsStayBetween : Prop :=
  ∀ (sr : Nat) (p : RealtimeParameter ℝ) (w : ℝ) (s e : Int) (bs : List (Int × Nat)) (pre : List Int)
    (t0 : Int) (rest : List Int), 0 < sr → RampCase sr p w s e bs pre t0 rest →
    ∀ v ∈ (processAll realArith sr p bs).1, min p.value w ≤ v ∧ v ≤ max p.value w

/-- A parameter at 0 with a ramp to 1 that lasts two samples at 48 kHz, from time 0. -/
noncomputable def shortRamp : RealtimeParameter ℝ :=
  (new realArith 0).addChange ⟨1, Timestamp.fromSamples 2 48000, .linear 0⟩

/-- Frames 0, 1 and 2 when the first call to the engine is for one frame and the second for two. -/
theorem shortRamp_times : frameTimes 48000 [(0, 1), (Timestamp.fromSamples 1 48000, 2)] =
    [0, 89478, 178956] ∧ Timestamp.fromSamples 2 48000 = 178957 := by
  constructor
  · simp [frameTimes, List.range_succ, Timestamp.incrementedBySamples, Timestamp.fromSamples,
      Timestamp.fromSeconds, Timestamp.roundHalfEven, Timestamp.one]
    norm_num
  · simp [Timestamp.fromSamples, Timestamp.fromSeconds, Timestamp.roundHalfEven, Timestamp.one]
    norm_num

theorem shortRamp_case : RampCase 48000 shortRamp 1 0 178957
    [(0, 1), (Timestamp.fromSamples 1 48000, 2)] [] 0 [89478, 178956] := by
  obtain ⟨h1, h2⟩ := shortRamp_times
  refine ⟨?_, h1, ?_, ?_, le_refl _, by decide⟩
  · unfold shortRamp addChange
    rw [h2]
    simp [new]
  · rw [h1]; decide
  · intro t ht; cases ht

theorem shortRamp_value : shortRamp.value = 0 := rfl

/-- The third frame is at 150 % of the way. -/
theorem shortRamp_third : ∃ v, (1.49 : ℝ) < v ∧
    (processAll realArith 48000 shortRamp [(0, 1), (Timestamp.fromSamples 1 48000, 2)]).1[2]? =
      some v := by
  have h := (ramp_values shortRamp_case (.inr (by
    rw [shortRamp_value]; unfold rampLength epsilon; norm_num))).2 2 178956 rfl
  refine ⟨_, ?_, h⟩
  rw [if_pos (by decide), shortRamp_value]
  unfold rampLength
  norm_num

example : ∃ step : ℝ, (processAll realArith 48000 shortRamp
    [(0, 1), (Timestamp.fromSamples 1 48000, 2)]).1[1]? = some (0 + 2 * step) := by
  obtain ⟨st, _, h2, _⟩ := C19_linear_ramp_partial _ _ _ _ _ _ _ _ _ shortRamp_case (.inr (by
    rw [shortRamp_value]; unfold rampLength epsilon; norm_num))
  refine ⟨st, ?_⟩
  have := h2 1 89478 rfl (by decide)
  rw [shortRamp_value] at this
  rw [List.length_nil, Nat.zero_add] at this
  rw [this]
  norm_num

/-- C19 is violated: the frame times are rounded, so a ramp over two samples rendered in blocks of one
and two frames has a third step, to 150 % of the way, one unit before its end time. -/
theorem C19_between_violated : ¬ RampsStayBetween := by
  intro h
  obtain ⟨v, hv, hm⟩ := shortRamp_third
  have := (h _ _ _ _ _ _ _ _ _ (by decide) shortRamp_case v (List.mem_of_getElem? hm)).2
  rw [shortRamp_value] at this
  norm_num at this
  linarith

/-- A ramp from 0 to 1 that ends one unit of time after it begins. -/
noncomputable def spike : RealtimeParameter ℝ := (new realArith 0).addChange ⟨1, 1, .linear 0⟩

theorem spike_case : RampCase 48000 spike 1 0 1 [(0, 1)] [] 0 [] := by
  have h1 : frameTimes 48000 [((0 : Int), 1)] = [0] := by
    rw [frameTimes_one]
    simp [List.range_succ, incremented_zero]
  refine ⟨?_, h1, ?_, ?_, le_refl _, by decide⟩
  · unfold spike addChange; simp [new]
  · rw [h1]; decide
  · intro t ht; cases ht

/-- C19 is violated: a ramp shorter than the distance of two frames can go to more than 80000 times the
requested value for one frame. -/
theorem C19_spike_violated : ∃ v, (80000 : ℝ) < v ∧
    (processAll realArith 48000 spike [(0, 1)]).1 = [v] := by
  have h := (ramp_values spike_case (.inl rfl)).2 0 0 rfl
  have hl : (processAll realArith 48000 spike [(0, 1)]).1.length = 1 := by
    rw [processAll_one, process_steps, steps_length]
    · simp
    · unfold isStatic; rw [spike_case.pending]; simp
  obtain ⟨x, hx⟩ := List.length_eq_one_iff.mp hl
  rw [hx] at h ⊢
  refine ⟨x, ?_, rfl⟩
  simp only [List.length_nil, Nat.zero_add, List.getElem?_cons_zero] at h
  injection h with h
  rw [h, if_pos (by decide), show spike.value = 0 from rfl]
  unfold rampLength
  norm_num

/-- A ramp over two samples at a sampling rate whose sample times are exact. -/
theorem halfRamp_case : RampCase 4 ((new realArith 0).addChange ⟨1, 2147483648, .linear 0⟩) 1 0
    2147483648 [(0, 3)] [] 0 [1073741824, 2147483648] := by
  have h1 : frameTimes 4 [((0 : Int), 3)] = [0, 1073741824, 2147483648] := by
    rw [frameTimes_one]
    simp [List.range_succ, Timestamp.incrementedBySamples, Timestamp.fromSamples,
      Timestamp.fromSeconds, Timestamp.roundHalfEven, Timestamp.one]
    norm_num
  refine ⟨?_, h1, ?_, ?_, le_refl _, by decide⟩
  · unfold addChange; simp [new]
  · rw [h1]; decide
  · intro t ht; cases ht

example : ∀ v ∈ (processAll realArith 4 ((new realArith 0).addChange ⟨1, 2147483648, .linear 0⟩)
    [(0, 3)]).1, min 0 1 ≤ v ∧ v ≤ max 0 1 :=
  C19_whole_ramp_between 4 3 (by decide) _ 1 0 2147483648 0 _ halfRamp_case 2 (by
    unfold rampLength; norm_num)

example : ∀ v ∈ (processAll realArith 48000 spike [(0, 1)]).1,
    |v - 0| ≤ |1 - 0| + |1 - 0| / rampLength 0 1 48000 :=
  C19_overshoot_bound 48000 1 (by decide) spike 1 0 1 0 [] spike_case

/-! ## C20 -/

/-- C20 in full: whatever is requested, every value generated is in the parameter's range. -/
def StaysInRange : Prop :=
  ∀ (r : ParameterRange ℝ) (sr : Nat) (as : List (ParameterAction ℝ)), r.Valid → 0 < sr →
    ∀ v ∈ (actAll realArith r sr (new realArith r.default) as).1, r.Mem v

theorem clamp_mem {r : ParameterRange ℝ} (hr : r.Valid) (v : ℝ) : r.Mem (r.clamp v) := by
  unfold ParameterRange.clamp
  exact ⟨le_max_left _ _, max_le hr.1 (min_le_right _ _)⟩

/-- No ramp is in progress or pending and all values are in the range. -/
structure Inside (r : ParameterRange ℝ) (p : RealtimeParameter ℝ) : Prop where
  value : r.Mem p.value
  current : r.Mem p.current.value
  changes : ∀ c ∈ p.changes, c.method = .immediate ∧ r.Mem c.value
  increment : p.increment = 0
  coefficient : p.coefficient = 1

theorem Inside.step {r : ParameterRange ℝ} {p : RealtimeParameter ℝ} (h : Inside r p) (sr : Nat)
    (t : Int) : Inside r (step realArith sr p t) := by
  have hb : Inside r (begin realArith p t sr p.value) := by
    unfold begin
    split
    · exact h
    · rename_i c rest hc
      obtain ⟨h1, h2⟩ := h.changes c (by rw [hc]; exact List.mem_cons_self)
      rw [h1]
      simp only
      split
      · exact ⟨h.value, h2, fun x hx => h.changes x (by rw [hc]; exact List.mem_cons_of_mem _ hx),
          rfl, rfl⟩
      · exact h
  unfold RealtimeParameter.step valueAtTime
  refine ⟨?_, hb.current, hb.changes, hb.increment, hb.coefficient⟩
  simp only
  unfold advance
  split
  · exact hb.current
  · rw [hb.increment, hb.coefficient]
    change r.Mem (p.value * 1 + 0)
    rw [mul_one, add_zero]
    exact h.value

theorem Inside.steps {r : ParameterRange ℝ} (sr : Nat) (ts : List Int) : ∀ {p : RealtimeParameter ℝ},
    Inside r p → Inside r (steps realArith sr p ts).2 ∧
      ∀ v ∈ (RealtimeParameter.steps realArith sr p ts).1, r.Mem v := by
  induction ts with
  | nil => intro p h; exact ⟨h, by intro v hv; cases hv⟩
  | cons t ts ih =>
    intro p h
    obtain ⟨h1, h2⟩ := ih (h.step sr t)
    refine ⟨h1, ?_⟩
    intro v hv
    rcases List.mem_cons.mp hv with rfl | hv
    · exact (h.step sr t).value
    · exact h2 v hv

theorem Inside.process {r : ParameterRange ℝ} {p : RealtimeParameter ℝ} (h : Inside r p) (sr : Nat)
    (t : Int) (n : Nat) : Inside r (process realArith p t n sr).2 ∧
      ∀ v ∈ (RealtimeParameter.process realArith p t n sr).1, r.Mem v := by
  by_cases hs : isStatic realArith p = true
  · unfold RealtimeParameter.process
    rw [if_pos hs]
    refine ⟨h, ?_⟩
    intro v hv
    rw [(List.mem_replicate.mp hv).2]
    exact h.value
  · rw [process_steps _ _ _ _ _ (by simpa using hs)]
    exact h.steps sr _

/-- C20: with any history of immediate changes, cancellations and blocks, at any times, every value is
in the range. Missing for the full claim: ramps, for which it fails. -/
theorem C20_range_partial (r : ParameterRange ℝ) (hr : r.Valid) (sr : Nat)
    (as : List (ParameterAction ℝ)) (hi : ParameterAction.Immediate as) :
    ∀ v ∈ (actAll realArith r sr (new realArith r.default) as).1, r.Mem v := by
  have key : ∀ (as : List (ParameterAction ℝ)) (p : RealtimeParameter ℝ),
      ParameterAction.Immediate as → Inside r p → ∀ v ∈ (actAll realArith r sr p as).1, r.Mem v := by
    intro as
    induction as with
    | nil => intro p _ _ v hv; cases hv
    | cons a as ih =>
      intro p hi hp v hv
      have hi' : ParameterAction.Immediate as := fun v e m hm => hi v e m (List.mem_cons_of_mem _ hm)
      have ha : Inside r (act realArith r sr p a).2 ∧ ∀ v ∈ (act realArith r sr p a).1, r.Mem v := by
        cases a with
        | request v e m =>
          refine ⟨⟨hp.value, hp.current, ?_, hp.increment, hp.coefficient⟩, by intro v hv; cases hv⟩
          intro c hc
          have := (addChange_perm p ⟨r.clamp v, e, m⟩).mem_iff.mp hc
          rcases List.mem_append.mp this with h | h
          · exact hp.changes c h
          · rw [List.mem_singleton] at h
            subst h
            exact ⟨hi v e m List.mem_cons_self, clamp_mem hr v⟩
        | cancel =>
          exact ⟨⟨hp.value, hp.current, by intro c hc; (cases hc), hp.increment, hp.coefficient⟩,
            by intro v hv; (cases hv)⟩
        | cancelEndingAfter t =>
          exact ⟨⟨hp.value, hp.current, fun c hc => hp.changes c (List.mem_filter.mp hc).1,
            hp.increment, hp.coefficient⟩, by intro v hv; (cases hv)⟩
        | block t n => exact hp.process sr t n
      unfold actAll at hv
      rcases List.mem_append.mp hv with h | h
      · exact ha.2 v h
      · exact ih _ hi' ha.1 v h
  exact key as _ hi ⟨hr.2, hr.2, by intro c hc; (cases hc), rfl, rfl⟩

example : ∀ v ∈ (actAll realArith ⟨0, 0, 1⟩ 48000 (new realArith 0)
    [.request 7 5 .immediate, .block 3 4]).1, ParameterRange.Mem ⟨0, 0, 1⟩ v :=
  C20_range_partial ⟨0, 0, 1⟩ (by unfold ParameterRange.Valid; norm_num) 48000 _ (by
    intro v e m h
    simp at h
    exact h.2.2)

/-- C20: a ramp to a requested value that begins with a block and lasts a whole number of samples stays
in the range during that block, if the parameter was in it. -/
theorem C20_ramp_partial (r : ParameterRange ℝ) (hr : r.Valid) (sr n : Nat) (hsr : 0 < sr)
    (p : RealtimeParameter ℝ) (hp : r.Mem p.value) (w : ℝ) (s e t0 : Int) (rest : List Int)
    (h : RampCase sr p (r.clamp w) s e [(t0, n)] [] t0 rest) (N : Nat)
    (hN : rampLength t0 e sr = N) :
    ∀ v ∈ (processAll realArith sr p [(t0, n)]).1, r.Mem v := by
  intro v hv
  have h1 := C19_whole_ramp_between sr n hsr p _ s e t0 rest h N hN v hv
  have h2 := clamp_mem hr w
  exact ⟨le_trans (le_min hp.1 h2.1) h1.1, le_trans h1.2 (max_le hp.2 h2.2)⟩

example : ∀ v ∈ (processAll realArith 4 ((new realArith 0).addChange ⟨1, 2147483648, .linear 0⟩)
    [(0, 3)]).1, ParameterRange.Mem ⟨0, 0, 1⟩ v :=
  C20_ramp_partial ⟨0, 0, 1⟩ (by unfold ParameterRange.Valid; norm_num) 4 3 (by decide) _
    (by constructor <;> simp [addChange, new]) 9 0 2147483648 0 _
    (by have : (ParameterRange.mk (0 : ℝ) 0 1).clamp 9 = 1 := by
          unfold ParameterRange.clamp; norm_num
        rw [this]; exact halfRamp_case) 2 (by unfold rampLength; norm_num)

/-- C20 is violated: a ramp to 1 in a parameter with the range from 0 to 1 reaches almost 1.5. -/
theorem C20_range_violated : ¬ StaysInRange := by
  intro h
  obtain ⟨v, hv, hm⟩ := shortRamp_third
  have hr : (ParameterRange.mk (0 : ℝ) 0 1).clamp 1 = 1 := by
    unfold ParameterRange.clamp; norm_num
  have := h ⟨0, 0, 1⟩ 48000 [.request 1 (Timestamp.fromSamples 2 48000) (.linear 0), .block 0 1,
    .block (Timestamp.fromSamples 1 48000) 2] (by unfold ParameterRange.Valid; norm_num) (by decide) v
    (by
      have h1 := List.mem_of_getElem? hm
      unfold shortRamp at h1
      simp only [processAll] at h1
      simp only [actAll, act, hr]
      simpa using h1)
  have h2 := this.2
  simp only at h2
  linarith

end RealtimeParameter
end Rawdio
