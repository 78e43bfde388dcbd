import Verif.Model.OscillatorExample
import Verif.Props.FileExamples
import Verif.Props.OscillatorSession

/-!
# What the example that sweeps an oscillator plays (C99)
-/

namespace Rawdio
namespace RowExamples

open Processor Network Mixed

variable {N : Platform} {al : Int → Nat → Nat → Nat → Nat × Nat}

/-- C99: all process calls of a session with nodes in a row succeed, if the requests are for what the nodes have and no
oscillator comes to a whole number of cycles at a frame. -/
theorem C99_row_runs_partial (hz : ∀ x, N.isZero x = true → x = 0) (ho : ∀ x, N.isOne x = true → x = 1) (mf mc sr : Nat)
    (hm : 0 < mf) (hsr : 0 < sr) (hsr' : sr < 2 ^ 32) (hlen : mf * sr ≤ 2 ^ 33) (parts : List Part)
    (hu : ∀ p ∈ parts, p.kind.Usable) (hid : (parts.map Part.id).Nodup)
    (hch : ∀ p ∈ parts, p.kind.inputs ≤ mc ∧ p.kind.outputs ≤ mc) (hl : parts.length ≤ 1022)
    (later : List (Nat × MixedRequest)) (hr : ∀ p ∈ parts, ∀ r, (p.id, r) ∈ allRequests parts later → p.kind.Takes r)
    (toOutput : Bool) :
    ∃ calls0, program sr mf parts later toOutput = .ok calls0 ∧
      ∀ waiting ks : List (Call ℝ MixedNode MixedRequest), ks ≠ [] → (∀ k ∈ waiting ++ ks, k.Valid) →
        Delivered (fun i => if i = 0 then calls0 else []) waiting ks →
        (∀ es, ChainHistory mf sr (fun i => if i = 0 then allRequests parts later else []) ks es →
          ∀ p ∈ parts, p.kind.NeverWhole sr (framesIn ks) p.id es) →
        ∃ E, calls (MixedNode.ops N al) (new sr mc mf) (waiting ++ ks) = .ok E := by
  obtain ⟨nodes, n1, n2⟩ := nodes_ok (sr := sr) hm parts hu
  refine ⟨_, program_eq n1, ?_⟩
  intro waiting ks hks hv hdel hw
  have hall := row_allowed (later := later) (b := toOutput) mc n2 hid hch hl
  have hreq : ∀ i, requests (if i = 0 then rowCalls nodes parts later toOutput else []) =
      if i = 0 then allRequests parts later else [] := by
    intro i
    split
    · exact row_requests n2
    · rfl
  refine C99_runs_partial hz ho mf mc sr hm hsr hsr' hlen _
    (ProgramSteps.program ProgramSteps.build_builds (ProgramSteps.allowed_left _ _ hall) ProgramSteps.build_starts)
    (parts.map fun p => (p.id, p.kind)) ?_ ?_ ?_ ?_ waiting ks hks hv hdel ?_
  · intro q hq
    obtain ⟨p, hp, rfl⟩ := List.mem_map.mp hq
    exact hu p hp
  · simp only [if_true]
    rw [← rowCalls, row_made n2]
    exact row_kinds n2
  · intro q hq i r hx
    obtain ⟨p, hp, rfl⟩ := List.mem_map.mp hq
    split at hx
    · rw [← rowCalls, row_requests n2] at hx
      exact hr p hp r hx
    · cases hx
  · intro n
    rw [ProgramSteps.at_first]
    split
    · trivial
    · exact hall
  · intro es hes q hq
    obtain ⟨p, hp, rfl⟩ := List.mem_map.mp hq
    refine hw es ?_ p hp
    have : (fun i => requests ((fun i => if i = 0 then rowCalls nodes parts later toOutput else []) i)) =
        fun i => if i = 0 then allRequests parts later else [] := funext hreq
    rw [← this]
    exact hes

theorem log_hundred : Real.log 100 ≤ 5 := by
  have h1 : Real.log 100 ≤ Real.log (2 ^ 7) := Real.log_le_log (by norm_num) (by norm_num)
  rw [Real.log_pow] at h1
  have h2 := Real.log_two_lt_d9
  push_cast at h1
  linarith

/-- The logarithm of the sweep. -/
theorem log_chirp {frequency : ℝ} (hf : 0 < frequency) (t : ℝ) : 0 < chirp frequency t ∧
    Real.log (chirp frequency t) = Real.log frequency + Real.log 100 * (if t < 4 then t / 4 else 1) := by
  unfold chirp
  split_ifs
  · refine ⟨by positivity, ?_⟩
    rw [Real.log_mul hf.ne' (by positivity), Real.log_rpow (by norm_num)]
    ring
  · refine ⟨by positivity, ?_⟩
    rw [Real.log_mul (by norm_num) hf.ne']
    ring

theorem chirp_near {frequency : ℝ} (hf : 0 < frequency) (x y : ℝ) :
    |Real.log (chirp frequency x / chirp frequency y)| ≤ 5 / 4 * |x - y| := by
  obtain ⟨x1, x2⟩ := log_chirp hf x
  obtain ⟨y1, y2⟩ := log_chirp hf y
  rw [Real.log_div x1.ne' y1.ne', x2, y2]
  have h0 : 0 ≤ Real.log 100 := Real.log_nonneg (by norm_num)
  have h5 := log_hundred
  have hk : |(if x < 4 then x / 4 else 1) - (if y < 4 then y / 4 else 1)| ≤ |x - y| / 4 := by
    have := le_abs_self (x - y)
    have := neg_abs_le (x - y)
    split_ifs <;> rw [abs_le] <;> constructor <;> linarith
  rw [show ∀ l u v : ℝ, l + Real.log 100 * u - (l + Real.log 100 * v) = Real.log 100 * (u - v) by
    intros; ring, abs_mul, abs_of_nonneg h0]
  have := abs_nonneg (x - y)
  nlinarith [mul_le_mul h5 hk (abs_nonneg _) (by norm_num)]

theorem chirpLevel_near (x y : ℝ) : |chirpLevel x - chirpLevel y| ≤ 10 * |x - y| := by
  have := le_abs_self (x - y)
  have := neg_abs_le (x - y)
  unfold chirpLevel
  split_ifs <;> rw [abs_le] <;> constructor <;> linarith

theorem fromSeconds_four : Timestamp.fromSeconds 4 = 4 * 2 ^ 32 := by
  simp [Timestamp.fromSeconds, Timestamp.roundHalfEven, Timestamp.one]
  norm_num

/-- The frequency of the example that sweeps an oscillator. -/
theorem chirp_frequency {P : Type} (k : FxKind) (frequency : ℝ) (hf : 0 < frequency)
    (hk : k.default "frequency" = frequency) (b : Id) (mf sr : Nat) (hsr : 9 ≤ sr) (hle : sr ≤ 2 ^ 28)
    (changes : Nat → List (Id × MixedRequest)) (ks : List (Call ℝ P MixedRequest)) (es : List (ChainEvent MixedRequest))
    (h : ChainHistory mf sr changes ks es)
    (hown : ∀ j, (changes j).filterMap (fun x => if x.1 = b then x.2.parameter?.filter (fun r => r.name = "frequency") else none) =
      if j = 0 then [ParameterRequest.change "frequency" ⟨100 * frequency, Timestamp.fromSeconds 4,
        .exponential Timestamp.zero⟩] else [])
    (F : ℕ) (hF : F < framesIn ks) :
    0 < k.track sr (es.filterMap (ChainEvent.seen b MixedRequest.parameter?)) b "frequency" F ∧
    |Real.log (k.track sr (es.filterMap (ChainEvent.seen b MixedRequest.parameter?)) b "frequency" F /
      chirp frequency (F / sr))| ≤ 11 / sr + 1 / 10 ^ 6 := by
  have hsr' : (9 : ℝ) ≤ sr := by exact_mod_cast hsr
  have hle' : (sr : ℝ) ≤ 2 ^ 28 := by exact_mod_cast hle
  have hpos : (0 : ℝ) < sr := by linarith
  have hT : (0 : Int) = Timestamp.fromSamples (framesIn (ks.take 0)) sr := by
    simp [framesIn, Timestamp.fromSamples, Timestamp.fromSeconds, Timestamp.roundHalfEven]
  have e4 : (4 : ℝ) * sr * (2 ^ 32 / sr) = 4 * 2 ^ 32 := by field_simp
  obtain ⟨t, t1, t2, t3, t4, t5⟩ := C98_exponential k b "frequency" mf sr (by omega) hle _ 0
      [⟨100 * frequency, 0, 4 * 2 ^ 32⟩] (by
      intro j
      rw [hown j, fromSeconds_four]
      split
      · simp [Automation.request, Timestamp.zero]
      · rfl) ks es h 0 hT (by rw [hk]; simp [hf]) (by simp) (4 * sr) (Real.log 100) (4 * sr) (by linarith) (by linarith)
      (by
        refine ⟨?_, ?_⟩
        · rw [e4]
          simp [Automation.arriving]
          norm_num
        · simp [Automation.arriving])
      (by
        rw [e4]
        simp
        norm_num)
      (by
        rw [hk]
        intro x hx y hy
        simp only [List.map_cons, List.map_nil, List.mem_cons, List.not_mem_nil, or_false] at hx hy
        refine Real.log_le_log ?_ ?_
        · rcases hx with rfl | rfl <;> rcases hy with rfl | rfl <;> positivity
        · rcases hx with rfl | rfl <;> rcases hy with rfl | rfl <;>
            rw [div_le_iff₀ (by positivity)] <;> linarith) F hF (by simp [framesIn])
  have hcur : Automation.curve Automation.exponential (k.default "frequency")
      (([⟨100 * frequency, 0, 4 * 2 ^ 32⟩] : List AutomationPoint).map
        (Automation.arriving 0)) t = chirp frequency ((t : ℝ) / 2 ^ 32) := by
    rw [hk]
    have h0' : (0 : ℝ) ≤ t := by exact_mod_cast t1
    simp only [Automation.arriving, List.map_cons, List.map_nil, Automation.curve, Automation.exponential, chirp]
    norm_num
    have e1 : ((t : ℝ) / 4294967296 < 4) ↔ ((t : ℝ) < 17179869184) := by rw [div_lt_iff₀ (by norm_num)]; norm_num
    rw [if_congr e1 rfl rfl, if_neg (by omega)]
    split
    · rw [mul_div_assoc, div_self hf.ne', mul_one, div_div]
      norm_num
    · rfl
  rw [hcur] at t4 t5
  refine ⟨t3, ?_⟩
  have a1 := chirp_near hf ((t : ℝ) / 2 ^ 32) (F / sr)
  have a2 : |(t : ℝ) / 2 ^ 32 - F / sr| ≤ 3 / 2 / 2 ^ 32 := by
    rw [show (t : ℝ) / 2 ^ 32 - F / sr = ((t : ℝ) - F * (2 ^ 32 / sr)) / 2 ^ 32 by field_simp, abs_div,
      abs_of_pos (show (0 : ℝ) < 2 ^ 32 by norm_num)]
    exact div_le_div_of_nonneg_right t2 (by norm_num)
  have a3 : 8 * Real.log 100 / (4 * (sr : ℝ) - 3) ≤ 11 / sr := by
    rw [div_le_div_iff₀ (by linarith) hpos]
    nlinarith [log_hundred]
  have a4 : 4 * (sr : ℝ) / 2 ^ 51 ≤ 5 / 10 ^ 7 := by
    rw [div_le_iff₀ (by norm_num)]
    linarith
  obtain ⟨s1, _⟩ := log_chirp hf (F / sr)
  rw [Real.log_div t3.ne' t4.ne'] at t5
  rw [Real.log_div t4.ne' s1.ne'] at a1
  rw [Real.log_div t3.ne' s1.ne']
  have := abs_sub_le (Real.log (k.track sr (es.filterMap (ChainEvent.seen b MixedRequest.parameter?)) b "frequency" F))
    (Real.log (chirp frequency ((t : ℝ) / 2 ^ 32))) (Real.log (chirp frequency (F / sr)))
  norm_num at *
  linarith

/-- The level of the example that sweeps an oscillator. -/
theorem chirp_level {P : Type} (k : FxKind) (hk : k.default "gain" = 1) (b : Id) (mf sr : Nat) (hsr : 1000 ≤ sr)
    (hle : sr ≤ 2 ^ 28) (changes : Nat → List (Id × MixedRequest)) (ks : List (Call ℝ P MixedRequest))
    (es : List (ChainEvent MixedRequest)) (h : ChainHistory mf sr changes ks es)
    (hown : ∀ j, (changes j).filterMap (fun x => if x.1 = b then x.2.parameter?.filter (fun r => r.name = "gain") else none) =
      if j = 0 then [ParameterRequest.change "gain" ⟨0, Timestamp.zero, .immediate⟩,
        .change "gain" ⟨1, Timestamp.fromSeconds (1 / 10), .linear Timestamp.zero⟩,
        .change "gain" ⟨0, Timestamp.fromSeconds 4, .linear (Timestamp.fromSeconds (39 / 10))⟩] else [])
    (F : ℕ) (hF : F < framesIn ks) :
    |k.track sr (es.filterMap (ChainEvent.seen b MixedRequest.parameter?)) b "gain" F - chirpLevel (F / sr)| ≤
      83 / sr + 1 / 10 ^ 6 := by
  have hsr' : (1000 : ℝ) ≤ sr := by exact_mod_cast hsr
  have hle' : (sr : ℝ) ≤ 2 ^ 28 := by exact_mod_cast hle
  have hpos : (0 : ℝ) < sr := by linarith
  have hT : (0 : Int) = Timestamp.fromSamples (framesIn (ks.take 0)) sr := by
    simp [framesIn, Timestamp.fromSamples, Timestamp.fromSeconds, Timestamp.roundHalfEven]
  have e1 : (sr : ℝ) / 10 * (2 ^ 32 / sr) = 2 ^ 32 / 10 := by field_simp
  have e2 : (sr : ℝ) * (2 ^ 32 / sr) = 2 ^ 32 := by field_simp
  have f1 : Timestamp.fromSeconds (1 / 10) = 429496730 := by
    rw [Timestamp.fromSeconds, Timestamp.one]
    exact Timestamp.roundHalfEven_eq_of_abs_lt (by norm_num [abs_lt])
  have f2 : Timestamp.fromSeconds (39 / 10) = 16750372454 := by
    rw [Timestamp.fromSeconds, Timestamp.one]
    exact Timestamp.roundHalfEven_eq_of_abs_lt (by norm_num [abs_lt])
  obtain ⟨t, t1, t2, t3⟩ := C93_linear k b "gain" mf sr (by omega) hle _ 0
    [⟨0, 0, 0⟩, ⟨1, 0, 429496730⟩, ⟨0, 16750372454, 4 * 2 ^ 32⟩] (by
      intro j
      rw [hown j, f1, f2, fromSeconds_four]
      rfl) ks es h 0 hT (by simp) (sr / 10) 1 sr (by linarith) (by linarith)
      (by
        refine ⟨?_, ?_⟩
        · rw [e1]
          simp [Automation.arriving]
          norm_num
        · simp [Automation.arriving])
      (by
        rw [e2]
        simp
        norm_num)
      (by simp [hk]) F hF (by simp [framesIn])
  have hcur : |Automation.curve Automation.linear 1
      (([⟨0, 0, 0⟩, ⟨1, 0, 429496730⟩, ⟨0, 16750372454, 4 * 2 ^ 32⟩] : List AutomationPoint).map (Automation.arriving 0)) t -
      chirpLevel ((t : ℝ) / 2 ^ 32)| ≤ 1 / 10 ^ 8 := by
    have h0' : (0 : ℝ) ≤ t := by exact_mod_cast t1
    simp only [Automation.arriving, List.map_cons, List.map_nil, Automation.curve, Automation.linear, chirpLevel]
    norm_num
    have e1 : ((t : ℝ) / 4294967296 < 1 / 10) ↔ t < 429496730 := by
      rw [div_lt_iff₀ (by norm_num)]
      constructor
      · intro h
        by_contra hn
        have : (429496730 : ℝ) ≤ t := by exact_mod_cast not_lt.mp hn
        linarith
      · intro h
        have : (t : ℝ) ≤ 429496729 := by exact_mod_cast (show t ≤ 429496729 by omega)
        linarith
    have e2 : ((t : ℝ) / 4294967296 < 39 / 10) ↔ t < 16750372455 := by
      rw [div_lt_iff₀ (by norm_num)]
      constructor
      · intro h
        by_contra hn
        have : (16750372455 : ℝ) ≤ t := by exact_mod_cast not_lt.mp hn
        linarith
      · intro h
        have : (t : ℝ) ≤ 16750372454 := by exact_mod_cast (show t ≤ 16750372454 by omega)
        linarith
    have e3 : ((t : ℝ) / 4294967296 < 4) ↔ t < 17179869184 := by
      rw [div_lt_iff₀ (by norm_num)]
      constructor
      · intro h
        have : (t : ℝ) < 17179869184 := by linarith
        exact_mod_cast this
      · intro h
        have : (t : ℝ) < 17179869184 := by exact_mod_cast h
        linarith
    rw [if_congr e1 rfl rfl, if_congr e2 rfl rfl, if_congr e3 rfl rfl]
    rw [if_neg (by omega), if_neg (by omega), if_neg (by omega)]
    have cast : ∀ n : ℤ, n ≤ t → (n : ℝ) ≤ t := fun n h => by exact_mod_cast h
    have cast' : ∀ n : ℤ, t ≤ n → (t : ℝ) ≤ n := fun n h => by exact_mod_cast h
    by_cases r1 : t < 429496730
    · have b1 := cast' 429496729 (by omega)
      push_cast at b1
      rw [if_pos (by linarith), if_pos r1, abs_le]
      constructor <;> linarith
    have b1 := cast 429496730 (by omega)
    push_cast at b1
    rw [if_neg (by linarith), if_neg r1]
    by_cases r2 : t < 16750372454
    · have b2 := cast' 16750372453 (by omega)
      push_cast at b2
      rw [if_pos (by linarith), if_pos (by omega)]
      norm_num
    have b2 := cast 16750372454 (by omega)
    push_cast at b2
    rw [if_neg (by linarith)]
    by_cases r3 : t < 17179869184
    · have b3 := cast' 17179869183 (by omega)
      push_cast at b3
      rw [if_pos (by linarith)]
      by_cases r4 : t < 16750372455
      · have b4 := cast' 16750372454 (by omega)
        push_cast at b4
        rw [if_pos r4, abs_le]
        constructor <;> linarith
      · rw [if_neg r4, if_pos r3, abs_le]
        constructor <;> linarith
    have b3 := cast 17179869184 (by omega)
    push_cast at b3
    rw [if_neg (by linarith), if_neg (by omega), if_neg r3]
    norm_num
  rw [hk] at t3
  have a1 := chirpLevel_near ((t : ℝ) / 2 ^ 32) (F / sr)
  have a2 : |(t : ℝ) / 2 ^ 32 - F / sr| ≤ 3 / 2 / 2 ^ 32 := by
    rw [show (t : ℝ) / 2 ^ 32 - F / sr = ((t : ℝ) - F * (2 ^ 32 / sr)) / 2 ^ 32 by field_simp, abs_div,
      abs_of_pos (show (0 : ℝ) < 2 ^ 32 by norm_num)]
    exact div_le_div_of_nonneg_right t2 (by norm_num)
  have a3 : 8 * 1 / ((sr : ℝ) / 10 - 3) ≤ 83 / sr := by
    rw [div_le_div_iff₀ (by linarith) hpos]
    linarith
  have a4 : (sr : ℝ) / 2 ^ 51 ≤ 2 / 10 ^ 7 := by
    rw [div_le_iff₀ (by norm_num)]
    linarith
  have a5 := abs_sub_le (k.track sr (es.filterMap (ChainEvent.seen b MixedRequest.parameter?)) b "gain" F)
    (Automation.curve Automation.linear 1 (([⟨0, 0, 0⟩, ⟨1, 0, 429496730⟩, ⟨0, 16750372454, 4 * 2 ^ 32⟩] :
      List AutomationPoint).map (Automation.arriving 0)) t) (chirpLevel (F / sr))
  have a6 := abs_sub_le (Automation.curve Automation.linear 1 (([⟨0, 0, 0⟩, ⟨1, 0, 429496730⟩,
      ⟨0, 16750372454, 4 * 2 ^ 32⟩] : List AutomationPoint).map (Automation.arriving 0)) t)
    (chirpLevel ((t : ℝ) / 2 ^ 32)) (chirpLevel (F / sr))
  generalize Automation.curve Automation.linear 1 (([⟨0, 0, 0⟩, ⟨1, 0, 429496730⟩,
      ⟨0, 16750372454, 4 * 2 ^ 32⟩] : List AutomationPoint).map (Automation.arriving 0)) t = curve at *
  norm_num at *
  linarith

/-- C99: the example that sweeps an oscillator, with any frequency and harmonics: every frame is the sum of the harmonics
at the number of cycles gone by, times a level, on both channels. In every frame the frequency is within eleven frames of the
sweep (the whole of it is as long as a factor of a hundred), the level within nine frames of the ramps, and the sum within
the error of the straight lines (C76). -/
theorem C99_oscillator (hz : ∀ x, N.isZero x = true → x = 0) (ho : ∀ x, N.isOne x = true → x = 1) (mf mc sr : Nat)
    (hm : 0 < mf) (hmc : 2 ≤ mc) (hsr : 1000 ≤ sr) (hle : sr ≤ 2 ^ 28) (hlen : mf * sr ≤ 2 ^ 33) (frequency : ℝ)
    (hf : 0 < frequency) (harmonics : List Level) (a b s : Id) (hid : [a, b, s].Nodup)
    (calls0 : List (ApiCall MixedNode MixedRequest))
    (hcalls : chirpProgram sr mf frequency harmonics a b s = .ok calls0)
    (waiting ks : List (Call ℝ MixedNode MixedRequest)) (hv : ∀ k ∈ waiting ++ ks, k.Valid)
    (hdel : Delivered (fun i => if i = 0 then calls0 else []) waiting ks) (E : Processor ℝ MixedNode)
    (hE : calls (MixedNode.ops N al) (new sr mc mf) (waiting ++ ks) = .ok E) :
    ∃ pitch level : ℕ → ℝ,
      (∀ F < framesIn ks, 0 < pitch F ∧ |Real.log (pitch F / chirp frequency (F / sr))| ≤ 11 / sr + 1 / 10 ^ 6 ∧
        |level F - chirpLevel (F / sr)| ≤ 83 / sr + 1 / 10 ^ 6) ∧
      ∀ i k E1 o E2, (waiting ++ ks)[i]? = some k →
        calls (MixedNode.ops N al) (new sr mc mf) ((waiting ++ ks).take i) = .ok E1 →
        E1.process (MixedNode.ops N al) k.env k.commands k.input k.output = .ok (o, E2) →
        ∀ c f F, c < k.output.channelCount → f < k.output.frameCount →
          F = framesIn (ks.take (i - waiting.length)) + f →
          ((i < waiting.length ∨ 2 ≤ c) → o.sample? c f = some 0) ∧
          (waiting.length ≤ i → c < 2 → ∃ x, o.sample? c f = some (x * level F) ∧
            |x - Oscillator.harmonicSum harmonics (Oscillator.cycles pitch sr (F + 1))| ≤
              ∑ n ∈ Finset.range harmonics.length,
                |(harmonics.getD n ⟨0⟩).linear| * ((2 * Real.pi * (n + 1) / 8192) ^ 2 / 8)) := by
  have hsr0 : 0 < sr := by omega
  obtain ⟨⟨hab, has⟩, hbs⟩ : (a ≠ b ∧ a ≠ s) ∧ b ≠ s := by simpa using hid
  have hreqs : allRequests (chirpParts frequency harmonics a b s) chirpLevels =
      [(a, set "gain" Level.unity.linear Timestamp.zero),
      (a, exponentialRamp "frequency" (100 * frequency) Timestamp.zero (Timestamp.fromSeconds 4)),
      (b, set "gain" 0 Timestamp.zero), (b, ramp "gain" 1 Timestamp.zero (Timestamp.fromSeconds (1 / 10))),
      (b, ramp "gain" 0 (Timestamp.fromSeconds (39 / 10)) (Timestamp.fromSeconds 4))] := rfl
  obtain ⟨w1, w2⟩ := Oscillator.addHarmonics_get harmonics 0 (List.replicate Oscillator.tableSize 0) (by simp)
  have w3 : ∀ i < Oscillator.tableSize, (Oscillator.addHarmonics 0 harmonics
      (List.replicate Oscillator.tableSize 0)).getD i 0 = Oscillator.hsum 0 harmonics ((i : ℝ) / Oscillator.tableSize) := by
    intro i hi
    rw [w2 i hi, List.getD_eq_getElem?_getD, List.getElem?_replicate, if_pos hi, Option.getD_some, zero_add]
  rw [chirpProgram] at hcalls
  rw [chirpParts] at hreqs hcalls
  generalize Oscillator.addHarmonics 0 harmonics (List.replicate Oscillator.tableSize 0) = table at w1 w3 hreqs hcalls
  have hts : 0 < Oscillator.tableSize := by decide
  obtain ⟨es, y, e1, e2, e3⟩ := C93_row hz ho mf mc sr hm hsr0 (by omega) hlen _
    (by simp) (by
      intro p hp
      simp only [List.mem_cons, List.not_mem_nil, or_false] at hp
      rcases hp with rfl | rfl | rfl
      · exact ⟨by norm_num, by rw [w1]; exact hts, by rw [w3 0 hts]; simp [Oscillator.hsum_zero]⟩
      · trivial
      · trivial) (by simpa using hid) (by
      intro p hp
      simp only [List.mem_cons, List.not_mem_nil, or_false] at hp
      rcases hp with rfl | rfl | rfl
      · exact ⟨Nat.zero_le _, by change 1 ≤ mc; omega⟩
      · exact ⟨by change 1 ≤ mc; omega, by change 1 ≤ mc; omega⟩
      · exact ⟨by change 1 ≤ mc; omega, hmc⟩) (by simp) chirpLevels (by
      rw [hreqs]
      simp [set, ramp, exponentialRamp, MixedRequest.Proper]) calls0 hcalls waiting ks hv hdel E hE
  rw [hreqs] at e1
  obtain ⟨z, z1, w, z2, z3⟩ := e2
  have hpitch : ∀ F < framesIn ks, _ := fun F hF =>
    chirp_frequency (.oscillator frequency 1 table) frequency hf rfl a mf sr (by omega) hle _ ks es e1 (by
      intro j
      by_cases hj : j = 0
      · simp [hj, set, ramp, exponentialRamp, hab.symm, MixedRequest.parameter?, ParameterRequest.name, Option.filter]
      · simp [hj]) F hF
  have hlevel : ∀ F < framesIn ks, _ := fun F hF =>
    chirp_level (.gain 1) rfl b mf sr hsr hle _ ks es e1 (by
      intro j
      by_cases hj : j = 0
      · simp [hj, set, ramp, exponentialRamp, hab, MixedRequest.parameter?, ParameterRequest.name, Option.filter]
      · simp [hj]) F hF
  refine ⟨_, _, fun F hF => ⟨(hpitch F hF).1, (hpitch F hF).2, hlevel F hF⟩, ?_⟩
  intro i k E1 o E2 hik q1 q2 c f F hc hf' hF
  have hy := e3 i k E1 o E2 hik q1 q2 c f F hc hf' hF
  by_cases hi : i < waiting.length
  · rw [if_pos (.inl hi)] at hy
    exact ⟨fun _ => hy, fun h => absurd h (by omega)⟩
  have hFl : F < framesIn ks := by
    rw [List.getElem?_append_right (by omega)] at hik
    have hlt : i - waiting.length < ks.length := by
      by_contra hn; rw [List.getElem?_eq_none (by omega)] at hik; cases hik
    have e : ks = ks.take (i - waiting.length) ++ k :: ks.drop (i - waiting.length + 1) := by
      conv_lhs => rw [← List.take_append_drop (i - waiting.length) ks]
      rw [List.drop_eq_getElem_cons hlt]
      rw [List.getElem?_eq_getElem hlt] at hik
      injection hik with hik
      rw [hik]
    rw [hF]
    conv_rhs => rw [e]
    simp only [framesIn, List.map_append, List.sum_append, List.map_cons, List.sum_cons]
    omega
  have hsplit : y c F = if c < 2 then w 0 F else 0 := by
    rw [z3 c F hFl, NodeKind.mixed]
    by_cases hc2 : c < 2
    · rw [if_pos (by exact hc2), if_pos hc2]
      obtain ⟨j, j1, j2⟩ : ∃ j, framesIn (ks.take j) ≤ F ∧ F < framesIn (ks.take (j + 1)) := by
        by_contra hno
        push Not at hno
        have : ∀ j, framesIn (ks.take j) ≤ F := by
          intro j
          induction j with
          | zero => simp [framesIn]
          | succ j ih => exact hno j ih
        have := this ks.length
        rw [List.take_length] at this
        omega
      have hlev : (levelTrack NodeKind.splitter.levels (es.filterMap (ChainEvent.seen s MixedRequest.level?))).getD F
          NodeKind.splitter.levels = NodeKind.splitter.levels := by
        rw [C87_levels s mf sr _ ks es e1 _ j F j1 j2, List.flatMap_eq_nil_iff.mpr]
        · rfl
        · intro l _
          rw [List.filterMap_eq_nil_iff]
          intro x hx
          split at hx
          · simp only [List.mem_cons, List.not_mem_nil, or_false] at hx
            rcases hx with rfl | rfl | rfl | rfl | rfl <;> simp [has, hbs]
          · cases hx
      rw [hlev]
      show ∑ j ∈ Finset.range 1, _ = _
      rw [Finset.sum_range_one]
      have : NodeKind.splitter.levels 0 c = 1 := by simp [NodeKind.levels, hc2]
      rw [this, Mixer.effectiveGain_one, mul_one]
      exact if_pos (by change 0 < 1; omega)
    · rw [if_neg (by exact hc2), if_neg hc2]
  rw [hsplit] at hy
  by_cases hc2 : 2 ≤ c
  · refine ⟨fun _ => ?_, fun _ h => absurd h (by omega)⟩
    rw [hy, if_neg (show ¬ c < 2 by omega)]
    simp
  refine ⟨fun h => by rcases h with h | h <;> omega, fun _ _ => ?_⟩
  rw [if_neg (by omega), if_pos (by omega)] at hy
  have hosc := z1 (fun F hF => (hpitch F hF).1) 0 F hFl
  have hgain := z2 trivial 0 F hFl
  simp only [FxKind.heard, FxKind.effect, FxKind.outputs, NodeKind.outputs, Nat.zero_lt_one, if_true] at hosc hgain
  have hone : (FxKind.oscillator frequency 1 table).track sr
      (es.filterMap (ChainEvent.seen a MixedRequest.parameter?)) a "gain" F = 1 := by
    rw [C87_set_now _ a "gain" mf sr hsr0 (hle.trans (by norm_num)) _ 0 1 ?_ ks es e1 F hFl, if_pos]
    · exact ⟨by simp [framesIn], ks_pos hFl⟩
    · intro j
      by_cases hj : j = 0
      · simp [hj, set, ramp, exponentialRamp, hab.symm, MixedRequest.parameter?, ParameterRequest.name, Option.filter,
          Level.unity, Level.fromLinear]
      · simp [hj]
  rw [hone, mul_one] at hosc
  rw [hgain, hosc] at hy
  refine ⟨_, hy, ?_⟩
  have h4 := Oscillator.tableAt_near table harmonics (by rw [w1]; exact hts) (by rw [w1]; exact w3)
    (Oscillator.cycles ((FxKind.oscillator frequency 1 table).track sr
      (es.filterMap (ChainEvent.seen a MixedRequest.parameter?)) a "frequency") sr (F + 1))
  rw [Oscillator.hsum_eq, Oscillator.herr_eq, w1] at h4
  simp only [Nat.zero_add] at h4
  exact h4

/-- C99: all process calls of a session of the example succeed, if frequencies that are as near to the sweep as those of the
example do not come to a whole number of cycles at a frame. -/
theorem C99_oscillator_runs_partial (hz : ∀ x, N.isZero x = true → x = 0) (ho : ∀ x, N.isOne x = true → x = 1) (mf mc sr : Nat)
    (hm : 0 < mf) (hmc : 2 ≤ mc) (hsr : 1000 ≤ sr) (hle : sr ≤ 2 ^ 28) (hlen : mf * sr ≤ 2 ^ 33) (frequency : ℝ)
    (hf : 0 < frequency) (harmonics : List Level) (a b s : Id) (hid : [a, b, s].Nodup) :
    ∃ calls0, chirpProgram sr mf frequency harmonics a b s = .ok calls0 ∧
      ∀ waiting ks : List (Call ℝ MixedNode MixedRequest), ks ≠ [] → (∀ k ∈ waiting ++ ks, k.Valid) →
        Delivered (fun i => if i = 0 then calls0 else []) waiting ks →
        (∀ pitch : ℕ → ℝ, (∀ F < framesIn ks, 0 < pitch F ∧
            |Real.log (pitch F / chirp frequency (F / sr))| ≤ 11 / sr + 1 / 10 ^ 6) →
          ∀ F < framesIn ks, ¬ Oscillator.Whole (Oscillator.cycles pitch sr (F + 1))) →
        ∃ E, calls (MixedNode.ops N al) (new sr mc mf) (waiting ++ ks) = .ok E := by
  obtain ⟨⟨hab, has⟩, hbs⟩ : (a ≠ b ∧ a ≠ s) ∧ b ≠ s := by simpa using hid
  have hreqs : allRequests (chirpParts frequency harmonics a b s) chirpLevels =
      [(a, set "gain" Level.unity.linear Timestamp.zero),
      (a, exponentialRamp "frequency" (100 * frequency) Timestamp.zero (Timestamp.fromSeconds 4)),
      (b, set "gain" 0 Timestamp.zero), (b, ramp "gain" 1 Timestamp.zero (Timestamp.fromSeconds (1 / 10))),
      (b, ramp "gain" 0 (Timestamp.fromSeconds (39 / 10)) (Timestamp.fromSeconds 4))] := rfl
  obtain ⟨w1, w2⟩ := Oscillator.addHarmonics_get harmonics 0 (List.replicate Oscillator.tableSize 0) (by simp)
  have w3 : (Oscillator.addHarmonics 0 harmonics (List.replicate Oscillator.tableSize 0)).getD 0 0 = 0 := by
    rw [w2 0 (by decide), List.getD_eq_getElem?_getD, List.getElem?_replicate, if_pos (by decide), Option.getD_some, zero_add]
    simp [Oscillator.hsum_zero]
  rw [chirpProgram]
  rw [chirpParts] at hreqs ⊢
  generalize Oscillator.addHarmonics 0 harmonics (List.replicate Oscillator.tableSize 0) = table at w1 w3 hreqs ⊢
  obtain ⟨calls0, h1, h2⟩ := C99_row_runs_partial (N := N) (al := al) hz ho mf mc sr hm (by omega) (by omega) hlen
    [⟨a, .effect (.oscillator frequency 1 table), [set "gain" Level.unity.linear Timestamp.zero,
      exponentialRamp "frequency" (100 * frequency) Timestamp.zero (Timestamp.fromSeconds 4)]⟩,
    ⟨b, .effect (.gain 1), []⟩, ⟨s, .splitter, []⟩] (by
      intro p hp
      simp only [List.mem_cons, List.not_mem_nil, or_false] at hp
      rcases hp with rfl | rfl | rfl
      · exact ⟨by norm_num, by rw [w1]; decide, w3⟩
      · trivial
      · trivial) (by simpa using hid) (by
      intro p hp
      simp only [List.mem_cons, List.not_mem_nil, or_false] at hp
      rcases hp with rfl | rfl | rfl
      · exact ⟨Nat.zero_le _, by change 1 ≤ mc; omega⟩
      · exact ⟨by change 1 ≤ mc; omega, by change 1 ≤ mc; omega⟩
      · exact ⟨by change 1 ≤ mc; omega, hmc⟩) (by simp) chirpLevels (by
      rw [hreqs]
      intro p hp r hr
      simp only [List.mem_cons, List.not_mem_nil, or_false] at hp
      rcases hp with rfl | rfl | rfl
      · simp [hab] at hr
        rcases hr with rfl | rfl <;> simp [NodeKind.Takes, FxKind.names, set, exponentialRamp, ParameterRequest.name]
      · simp [hab.symm] at hr
        rcases hr with rfl | rfl | rfl <;> simp [NodeKind.Takes, FxKind.names, set, ramp, ParameterRequest.name]
      · simp [has.symm, hbs.symm] at hr) true
  refine ⟨calls0, h1, ?_⟩
  intro waiting ks hks hv hdel hw
  refine h2 waiting ks hks hv hdel ?_
  intro es hes p hp
  rw [hreqs] at hes
  simp only [List.mem_cons, List.not_mem_nil, or_false] at hp
  rcases hp with rfl | rfl | rfl
  · have hpitch : ∀ F < framesIn ks, _ := fun F hF =>
      chirp_frequency (.oscillator frequency 1 table) frequency hf rfl a mf sr (by omega) hle _ ks es hes (by
        intro j
        by_cases hj : j = 0
        · simp [hj, set, ramp, exponentialRamp, hab.symm, MixedRequest.parameter?, ParameterRequest.name, Option.filter]
        · simp [hj]) F hF
    intro F hF
    exact ⟨(hpitch F hF).1, hw _ hpitch F hF⟩
  · trivial
  · trivial

/-! ### Examples -/

/-- The example program with its own values, in a session of three calls. -/
example : ∃ calls0 E, chirpProgram 44100 16 20 [Level.fromDb (-3), Level.fromDb (-9)] 1 2 3 = .ok calls0 ∧
    (∀ k ∈ [mixedCall []] ++ [mixedCall calls0, mixedCall []], k.Valid) ∧
    Delivered (fun i => if i = 0 then calls0 else []) [mixedCall []] [mixedCall calls0, mixedCall []] ∧
    calls (MixedNode.ops Fx.plain fun _ _ _ _ => (0, 0)) (new 44100 2 16)
      ([mixedCall []] ++ [mixedCall calls0, mixedCall []]) = .ok E := by
  obtain ⟨calls0, h1, h2⟩ := C99_oscillator_runs_partial (N := Fx.plain) (al := fun _ _ _ _ => (0, 0)) (by simp [Fx.plain])
    (by simp [Fx.plain]) 16 2 44100 (by norm_num) (by norm_num) (by norm_num) (by norm_num) (by norm_num) 20 (by norm_num)
    [Level.fromDb (-3), Level.fromDb (-9)] 1 2 3 (by decide)
  obtain ⟨E, hE⟩ := h2 _ _ (by simp) (sessionValid _) (mixedCall_delivered calls0) (by
    intro pitch hp F hF
    have hfr : framesIn [mixedCall calls0, mixedCall []] = 16 := by simp [framesIn, mixedCall, Buf.frameCount]
    rw [hfr] at hp hF
    have hb : ∀ F < 16, 0 < pitch F / (44100 : ℕ) ∧ pitch F / (44100 : ℕ) < 1 / 16 := by
      intro F hF
      obtain ⟨p1, p2⟩ := hp F hF
      obtain ⟨c1, c2⟩ := log_chirp (frequency := 20) (by norm_num) ((F : ℝ) / (44100 : ℕ))
      refine ⟨by positivity, ?_⟩
      rw [Real.log_div p1.ne' c1.ne', c2] at p2
      have p3 := (abs_le.mp p2).2
      have h0 : 0 ≤ Real.log 100 := Real.log_nonneg (by norm_num)
      have h20 : Real.log 20 = Real.log 2000 - Real.log 100 := by
        rw [← Real.log_div (by norm_num) (by norm_num)]
        norm_num
      have hk : (if (F : ℝ) / (44100 : ℕ) < 4 then (F : ℝ) / (44100 : ℕ) / 4 else 1) ≤ 1 := by
        split <;> linarith
      have hlog : Real.log (pitch F) ≤ Real.log 2000 + 1 / 1000 := by
        have := mul_le_mul_of_nonneg_left hk h0
        norm_num at p3 this ⊢
        linarith
      have hexp : Real.exp (1 / 1000) ≤ 11 / 10 := by
        have := Real.exp_bound' (x := 1 / 1000) (by norm_num) (by norm_num) (n := 1) (by norm_num)
        norm_num at this ⊢
        linarith
      have : pitch F ≤ 2000 * Real.exp (1 / 1000) := by
        rw [← Real.exp_log p1, ← Real.exp_log (show (0 : ℝ) < 2000 by norm_num), ← Real.exp_add]
        exact Real.exp_le_exp.mpr hlog
      rw [div_lt_iff₀ (by norm_num)]
      push_cast
      linarith
    have hs : ∀ n ≤ 16, 0 < n → 0 < Oscillator.cycles pitch 44100 n ∧ Oscillator.cycles pitch 44100 n < n / 16 := by
      intro n hn
      induction n with
      | zero => intro h; omega
      | succ n ih =>
        intro _
        have hc : Oscillator.cycles pitch 44100 (n + 1) = Oscillator.cycles pitch 44100 n + pitch n / (44100 : ℕ) := by
          rw [Oscillator.cycles, Finset.sum_range_succ]
          rfl
        obtain ⟨b1, b2⟩ := hb n (by omega)
        rw [hc]
        by_cases h0 : n = 0
        · subst h0
          simp only [Oscillator.cycles, Finset.range_zero, Finset.sum_empty]
          constructor <;> push_cast at * <;> linarith
        · obtain ⟨i1, i2⟩ := ih (by omega) (by omega)
          constructor <;> push_cast at * <;> linarith
    obtain ⟨s1, s2⟩ := hs (F + 1) (by omega) (by omega)
    rintro ⟨m, hm⟩
    rw [hm] at s1 s2
    have m1 : 0 < m := by exact_mod_cast s1
    have m2 : (m : ℝ) < 1 := by
      have : ((F + 1 : ℕ) : ℝ) ≤ 16 := by exact_mod_cast (show F + 1 ≤ 16 by omega)
      linarith
    have m3 : m < 1 := by exact_mod_cast m2
    omega)
  exact ⟨calls0, E, h1, sessionValid _, mixedCall_delivered calls0, hE⟩

/-- An oscillator whose frequency is set to a quarter of the sample rate, in a session of three calls: it fails. -/
example : ∃ calls0, program 44100 16 [⟨1, .effect (.oscillator 440 2 (Oscillator.makeSine Oscillator.tableSize 1)),
      [set "frequency" 11025 Timestamp.zero]⟩] [] true = .ok calls0 ∧
    (∀ k ∈ [mixedCall []] ++ [mixedCall calls0, mixedCall []], k.Valid) ∧
    Delivered (fun i => if i = 0 then calls0 else []) [mixedCall []] [mixedCall calls0, mixedCall []] ∧
    ∀ E, calls (MixedNode.ops Fx.plain fun _ _ _ _ => (0, 0)) (new 44100 2 16)
      ([mixedCall []] ++ [mixedCall calls0, mixedCall []]) ≠ .ok E := by
  have hu : (FxKind.oscillator 440 2 (Oscillator.makeSine Oscillator.tableSize 1)).Usable := by
    refine ⟨by norm_num, by rw [Oscillator.makeSine_length]; decide, ?_⟩
    rw [List.getD_eq_getElem?_getD, Oscillator.makeSine_get _ _ _ (by decide)]
    simp
  generalize Oscillator.makeSine Oscillator.tableSize 1 = table at hu ⊢
  obtain ⟨nodes, n1, n2⟩ := nodes_ok (sr := 44100) (mf := 16) (by norm_num)
    [⟨1, .effect (.oscillator 440 2 table), [set "frequency" 11025 Timestamp.zero]⟩] (by
      intro p hp
      rw [List.mem_singleton] at hp
      subst hp
      exact hu)
  have hall := row_allowed (later := []) (b := true) 2 n2 (by simp) (by
    intro p hp
    rw [List.mem_singleton] at hp
    subst hp
    exact ⟨Nat.zero_le _, le_refl 2⟩) (by simp)
  have hreq : ∀ i, requests (if i = 0 then rowCalls nodes [⟨1, .effect (.oscillator 440 2 table),
        [set "frequency" 11025 Timestamp.zero]⟩] [] true else []) =
      if i = 0 then [(1, set "frequency" 11025 Timestamp.zero)] else [] := by
    intro i
    split
    · exact row_requests n2
    · rfl
  refine ⟨_, program_eq n1, sessionValid _, mixedCall_delivered _, fun E => ?_⟩
  refine C99_whole_violated (N := Fx.plain) (by simp [Fx.plain]) (by simp [Fx.plain]) 16 2 44100 (by norm_num) (by norm_num) _
    (ProgramSteps.program ProgramSteps.build_builds (ProgramSteps.allowed_left _ _ hall) ProgramSteps.build_starts)
    (by simp only [if_true]; exact row_plain n2 (by simp)) 1 440 2 table hu ?_ ?_ _ _ (sessionValid _)
    (mixedCall_delivered _) ?_ E
  · simp only [if_true]
    rw [← rowCalls, row_made n2]
    have hk := row_kinds n2
    obtain ⟨d, ds, h1, h2, rfl⟩ := List.forall₂_cons_left_iff.mp hk
    exact ⟨d, by simp, h1⟩
  · intro j r hr
    rw [← rowCalls, hreq] at hr
    split at hr
    · simp [set] at hr
      subst hr
      simp [FxKind.names, ParameterRequest.name]
    · cases hr
  · intro es hes v hv
    have hes' : ChainHistory 16 44100 (fun i => if i = 0 then [(1, set "frequency" 11025 Timestamp.zero)] else [])
        [mixedCall (rowCalls nodes [⟨1, .effect (.oscillator 440 2 table),
          [set "frequency" 11025 Timestamp.zero]⟩] [] true), mixedCall []] es := by
      rw [← funext hreq]
      exact hes
    have hfr : ∀ as, framesIn [mixedCall as, mixedCall []] = 16 := by simp [framesIn, mixedCall, Buf.frameCount]
    rw [hfr]
    have hval : ∀ F < 16, v F = 11025 := by
      intro F hF
      rw [hv, C87_set_now _ 1 "frequency" 16 44100 (by norm_num) (by norm_num) _ 0 11025 ?_ _ es hes' F (by rw [hfr]; exact hF),
        if_pos]
      · exact ⟨by simp [framesIn], by simp⟩
      · intro j
        by_cases hj : j = 0
        · simp [hj, set, MixedRequest.parameter?, ParameterRequest.name, Option.filter]
        · simp [hj]
    refine ⟨fun F hF => by rw [hval F hF]; norm_num, 3, by norm_num, 1, ?_⟩
    rw [Oscillator.cycles, Finset.sum_congr rfl fun t ht => by
      rw [hval t (by have := Finset.mem_range.mp ht; omega)], Finset.sum_const, Finset.card_range]
    norm_num

end RowExamples
end Rawdio
