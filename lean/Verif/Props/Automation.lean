import Verif.Lemmas.Automation
import Verif.Props.Dynamics

/-!
# Automation in an engine (C90)

A program that asks for sets and ramps of a parameter draws a curve. What the nodes of an engine then use, frame by
frame, follows that curve.
-/

namespace Rawdio
namespace Fx

open Automation

/-- C90: a parameter of a node in an engine follows the curve of its sets and linear ramps, whatever the sizes of the
process calls. The requests are made before process call `n`; up to then the parameter has its default. From then on each
frame has the value of the curve at the time of that frame (to one and a half units of 2⁻³² s), up to `8 R / (M - 3)` when no
ramp is shorter than `M` frames and no two values differ by more than `R`; and up to `L / 2⁵¹` when no ramp is under way,
`L` being the length of the longest ramp in frames. Requests that are late start at the first frame of the call. -/
theorem C90_linear (k : FxKind) (i : Id) (name : String) (mf sr : Nat) (hsr : 0 < sr) (hle : sr ≤ 2 ^ 28)
    (changes : Nat → List (Id × ParameterRequest)) (n : Nat) (ps : List AutomationPoint)
    (hown : ∀ j, (changes j).filter (fun x => x.1 = i ∧ x.2.name = name) =
      if j = n then ps.map (fun p => (i, request .linear name p)) else [])
    (ks : List (Call ℝ FxNode ParameterRequest)) (es : List (ChainEvent ParameterRequest))
    (h : ChainHistory mf sr changes ks es) (T : Int) (hT : T = Timestamp.fromSamples (framesIn (ks.take n)) sr)
    (hlive : ∀ p ∈ ps, p.start = p.finish ∨ T < p.finish) (M R L : ℝ) (hM : 9 ≤ M) (hL : 0 ≤ L)
    (hsp : Spaced (2 ^ 32 / sr) M (ps.map (arriving T)))
    (hlen : ∀ p ∈ ps, (p.finish : ℝ) - p.start ≤ L * (2 ^ 32 / sr))
    (hR : ∀ x ∈ k.default name :: ps.map AutomationPoint.value, ∀ y ∈ k.default name :: ps.map AutomationPoint.value,
      |x - y| ≤ R) (F : Nat) (hF : F < framesIn ks) :
    (F < framesIn (ks.take n) → k.track sr es i name F = k.default name) ∧
    (framesIn (ks.take n) ≤ F → ∃ t : Int, T ≤ t ∧ |(t : ℝ) - F * (2 ^ 32 / sr)| ≤ 3 / 2 ∧
      |k.track sr es i name F - curve linear (k.default name) (ps.map (arriving T)) t| ≤ 8 * R / (M - 3) + L / 2 ^ 51 ∧
      (Flat (ps.map (arriving T)) t →
        |k.track sr es i name F - curve linear (k.default name) (ps.map (arriving T)) t| ≤ L / 2 ^ 51)) := by
  obtain ⟨hist, h1, h2, _⟩ := track_values i name (.new realArith (k.default name))
    (own := fun j => if j = n then ps.map (Automation.change false) else []) (by
      intro j
      rw [hown j]
      split
      · rw [List.map_map]; rfl
      · rfl) h
  obtain ⟨a1, a2⟩ := automation_values (e := false) (K := M - 3) hsr hle h1 hT (by linarith) hL (by simp) hlive
    (by simpa using hsp) hlen hR hF
  rw [FxKind.track, h2]
  refine ⟨a1, fun hn => ?_⟩
  obtain ⟨t, t1, t2, _, t3, t4⟩ := a2 hn
  exact ⟨t, t1, t2, t3, t4⟩

/-- C90: the same for sets and exponential ramps between positive values. The errors are of the logarithms: the ratio of the
value to that of the curve is near 1. -/
theorem C90_exponential (k : FxKind) (i : Id) (name : String) (mf sr : Nat) (hsr : 0 < sr) (hle : sr ≤ 2 ^ 28)
    (changes : Nat → List (Id × ParameterRequest)) (n : Nat) (ps : List AutomationPoint)
    (hown : ∀ j, (changes j).filter (fun x => x.1 = i ∧ x.2.name = name) =
      if j = n then ps.map (fun p => (i, request .exponential name p)) else [])
    (ks : List (Call ℝ FxNode ParameterRequest)) (es : List (ChainEvent ParameterRequest))
    (h : ChainHistory mf sr changes ks es) (T : Int) (hT : T = Timestamp.fromSamples (framesIn (ks.take n)) sr)
    (hpos : ∀ x ∈ k.default name :: ps.map AutomationPoint.value, 0 < x)
    (hlive : ∀ p ∈ ps, p.start = p.finish ∨ T < p.finish) (M R L : ℝ) (hM : 9 ≤ M) (hL : 0 ≤ L)
    (hsp : Spaced (2 ^ 32 / sr) M (ps.map (arriving T)))
    (hlen : ∀ p ∈ ps, (p.finish : ℝ) - p.start ≤ L * (2 ^ 32 / sr))
    (hR : ∀ x ∈ k.default name :: ps.map AutomationPoint.value, ∀ y ∈ k.default name :: ps.map AutomationPoint.value,
      Real.log (x / y) ≤ R) (F : Nat) (hF : F < framesIn ks) :
    (F < framesIn (ks.take n) → k.track sr es i name F = k.default name) ∧
    (framesIn (ks.take n) ≤ F → ∃ t : Int, T ≤ t ∧ |(t : ℝ) - F * (2 ^ 32 / sr)| ≤ 3 / 2 ∧ 0 < k.track sr es i name F ∧
      0 < curve exponential (k.default name) (ps.map (arriving T)) t ∧
      |Real.log (k.track sr es i name F / curve exponential (k.default name) (ps.map (arriving T)) t)| ≤
        8 * R / (M - 3) + L / 2 ^ 51 ∧
      (Flat (ps.map (arriving T)) t →
        |Real.log (k.track sr es i name F / curve exponential (k.default name) (ps.map (arriving T)) t)| ≤ L / 2 ^ 51)) := by
  obtain ⟨hist, h1, h2, _⟩ := track_values i name (.new realArith (k.default name))
    (own := fun j => if j = n then ps.map (Automation.change true) else []) (by
      intro j
      rw [hown j]
      split
      · rw [List.map_map]; rfl
      · rfl) h
  have hp0 : ∀ p ∈ ps, 0 < p.value := fun p hp => hpos _ (List.mem_cons_of_mem _ (List.mem_map_of_mem hp))
  obtain ⟨a1, a2⟩ := automation_values (e := true) (K := M - 3) (R := R) hsr hle h1 hT (by linarith) hL
    (fun _ => ⟨hpos _ List.mem_cons_self, hp0⟩) hlive (by simpa using hsp) hlen (by
      intro x hx y hy
      have e1 := hR x hx y hy
      have e2 := hR y hy x hx
      rw [Real.log_div (hpos x hx).ne' (hpos y hy).ne'] at e1
      rw [Real.log_div (hpos y hy).ne' (hpos x hx).ne'] at e2
      exact abs_le.mpr ⟨by change -R ≤ Real.log x - Real.log y; linarith, e1⟩) hF
  rw [FxKind.track, h2]
  refine ⟨a1, fun hn => ?_⟩
  obtain ⟨t, t1, t2, t3, t4, t5⟩ := a2 hn
  obtain ⟨c1, c2⟩ := log_curve (ps.map (arriving T)) (k.default name) t (hpos _ (by simp)) (by
    intro p hp
    obtain ⟨q, hq, rfl⟩ := List.mem_map.mp hp
    exact hp0 q hq)
  rw [List.map_map] at c2
  refine ⟨t, t1, t2, t3 rfl, c1, ?_⟩
  rw [Real.log_div (t3 rfl).ne' c1.ne', c2]
  exact ⟨t4, t5⟩

variable {N : Platform}

/-- C90: so a fade is heard: what a gain node plays is what goes in times the curve. -/
theorem C90_fade (i : Id) (nc mf mc sr : Nat) (hle : sr ≤ 2 ^ 28) (changes : Nat → List (Id × ParameterRequest)) (n : Nat)
    (ps : List AutomationPoint)
    (hown : ∀ j, (changes j).filter (fun x => x.1 = i ∧ x.2.name = "gain") =
      if j = n then ps.map (fun p => (i, request .linear "gain" p)) else [])
    (ks : List (Call ℝ FxNode ParameterRequest)) (k : Call ℝ FxNode ParameterRequest) (o : Buf ℝ)
    (h : OneEffect N i (.gain nc) mf mc sr changes ks k o) (T : Int)
    (hT : T = Timestamp.fromSamples (framesIn ((ks ++ [k]).take n)) sr)
    (hlive : ∀ p ∈ ps, p.start = p.finish ∨ T < p.finish) (M R L : ℝ) (hM : 9 ≤ M) (hL : 0 ≤ L)
    (hsp : Spaced (2 ^ 32 / sr) M (ps.map (arriving T)))
    (hlen : ∀ p ∈ ps, (p.finish : ℝ) - p.start ≤ L * (2 ^ 32 / sr))
    (hR : ∀ x ∈ 1 :: ps.map AutomationPoint.value, ∀ y ∈ 1 :: ps.map AutomationPoint.value, |x - y| ≤ R)
    (c f : Nat) (hc : c < k.output.channelCount) (hf : f < k.output.frameCount) (hmc : c < mc) (hcn : c < nc)
    (hn : framesIn ((ks ++ [k]).take n) ≤ framesIn ks + f) :
    ∃ (t : Int) (y : ℝ), T ≤ t ∧ |(t : ℝ) - (framesIn ks + f : ℕ) * (2 ^ 32 / sr)| ≤ 3 / 2 ∧ o.sample? c f = some y ∧
      |y - sessionInput true mc (ks ++ [k]) c (framesIn ks + f) * curve linear 1 (ps.map (arriving T)) t| ≤
        |sessionInput true mc (ks ++ [k]) c (framesIn ks + f)| * (8 * R / (M - 3) + L / 2 ^ 51) ∧
      (Flat (ps.map (arriving T)) t →
        |y - sessionInput true mc (ks ++ [k]) c (framesIn ks + f) * curve linear 1 (ps.map (arriving T)) t| ≤
          |sessionInput true mc (ks ++ [k]) c (framesIn ks + f)| * (L / 2 ^ 51)) := by
  obtain ⟨es, e1, e2⟩ := h.stream trivial
  have hF : framesIn ks + f < framesIn (ks ++ [k]) := by
    rw [Gain.framesIn_append]
    exact Nat.add_lt_add_left hf _
  obtain ⟨t, t1, t2, t3, t4⟩ := (C90_linear (.gain nc) i "gain" mf sr h.rate hle changes n ps hown _ es e1 T hT hlive M R L
    hM hL hsp hlen hR _ hF).2 hn
  refine ⟨t, _, t1, t2, by rw [e2 trivial c f hc hf, if_pos ⟨hmc, hcn⟩], ?_, ?_⟩
  · simp only [FxKind.effect]
    rw [← mul_sub, abs_mul]
    exact mul_le_mul_of_nonneg_left t3 (abs_nonneg _)
  · intro hfl
    simp only [FxKind.effect]
    rw [← mul_sub, abs_mul]
    exact mul_le_mul_of_nonneg_left (t4 hfl) (abs_nonneg _)

/-- A fade in over one second: silent at first, then rising, then at full level. -/
def fadeIn : List AutomationPoint := [⟨0, 0, 0⟩, ⟨1, 0, 2 ^ 32⟩]

theorem fadeIn_spaced : Spaced (2 ^ 32 / (48000 : ℕ)) 48000 (fadeIn.map (arriving 0)) := by
  refine ⟨?_, ?_⟩
  · simp [fadeIn, arriving]
    norm_num
  · simp [fadeIn, arriving]

theorem fadeIn_curve {t : Int} (h0 : 0 ≤ t) :
    curve linear 1 (fadeIn.map (arriving 0)) t = if t < 2 ^ 32 then (t : ℝ) / 2 ^ 32 else 1 := by
  have h0' : (0 : ℝ) ≤ t := by exact_mod_cast h0
  simp only [fadeIn, arriving, List.map_cons, List.map_nil, curve, linear]
  norm_num
  rw [if_neg (by linarith), if_neg (by linarith), if_neg (by linarith)]
  by_cases h : t < 4294967296
  · have : (t : ℝ) < 4294967296 := by exact_mod_cast h
    simp [h, this]
  · have : ¬ (t : ℝ) < 4294967296 := by exact_mod_cast h
    simp [h, this]

/-- Half way through the fade in, after 24000 frames, a signal of 1/2 is heard at 1/4 to a part in 5000, whatever the number of
frames that are rendered in one call; and from 48001 frames on at 1/2 to a part in 10⁹. -/
example (len : Nat) : ∃ d o, OneEffect plain 1 (.gain 1) 16 1 48000
      (dynChanges (fadeIn.map (request .linear "gain"))) [] (dynCall d (fadeIn.map (request .linear "gain")) (1 / 2) len) o ∧
    (24000 < len → ∃ y, o.sample? 0 24000 = some y ∧ |y - 1 / 4| ≤ 1 / 5000) ∧
    ∀ f < len, 48001 ≤ f → ∃ y, o.sample? 0 f = some y ∧ |y - 1 / 2| ≤ 1 / 10 ^ 9 := by
  obtain ⟨d, o, h⟩ := dyn_runs (.gain 1) trivial trivial ⟨le_rfl, le_rfl⟩ (fadeIn.map (request .linear "gain"))
    (by simp [fadeIn, request, ParameterRequest.name, FxKind.names]) (1 / 2) len
  refine ⟨d, o, h, ?_⟩
  have hz : framesIn ([] : List (Call ℝ FxNode ParameterRequest)) = 0 := rfl
  have key : ∀ f < len, ∃ (t : Int) (y : ℝ), 0 ≤ t ∧ |(t : ℝ) - f * (2 ^ 32 / 48000)| ≤ 3 / 2 ∧ o.sample? 0 f = some y ∧
      |y - 1 / 2 * curve linear 1 (fadeIn.map (arriving 0)) t| ≤ 1 / 2 * (8 * 1 / (48000 - 3) + 48000 / 2 ^ 51) ∧
      (Flat (fadeIn.map (arriving 0)) t →
        |y - 1 / 2 * curve linear 1 (fadeIn.map (arriving 0)) t| ≤ 1 / 2 * (48000 / 2 ^ 51)) := by
    intro f hf
    obtain ⟨t, y, t1, t2, t3, t4, t5⟩ := C90_fade 1 1 16 1 48000 (by norm_num) _ 0 fadeIn (by
      intro j
      by_cases hj : j = 0 <;> simp [hj, dynChanges, fadeIn, request, ParameterRequest.name]) [] _ o h 0
      (by simp [framesIn, Timestamp.fromSamples, Timestamp.fromSeconds, Timestamp.roundHalfEven])
      (by simp [fadeIn]) 48000 1 48000 (by norm_num) (by norm_num) fadeIn_spaced (by simp [fadeIn]; norm_num)
      (by simp [fadeIn]) 0 f Nat.one_pos hf Nat.one_pos Nat.one_pos (by simp [framesIn])
    rw [hz, Nat.zero_add, dyn_input _ _ _ _ _ hf, abs_of_pos (by norm_num : (0 : ℝ) < 1 / 2)] at t4 t5
    rw [hz, Nat.zero_add] at t2
    exact ⟨t, y, t1, by simpa using t2, t3, t4, t5⟩
  constructor
  · intro hlen
    obtain ⟨t, y, t1, t2, t3, t4, _⟩ := key 24000 hlen
    refine ⟨y, t3, ?_⟩
    obtain ⟨b1, b2⟩ := abs_le.mp t2
    norm_num at b1 b2
    have hlt : t < 2 ^ 32 := by
      have : (t : ℝ) < 2 ^ 32 := by norm_num; linarith
      exact_mod_cast this
    rw [fadeIn_curve t1, if_pos hlt] at t4
    obtain ⟨c1, c2⟩ := abs_le.mp t4
    norm_num at c1 c2
    rw [abs_le]
    constructor <;> linarith
  · intro f hf h1
    obtain ⟨t, y, t1, t2, t3, _, t5⟩ := key f hf
    refine ⟨y, t3, ?_⟩
    obtain ⟨b1, b2⟩ := abs_le.mp t2
    have hf' : (48001 : ℝ) ≤ f := by exact_mod_cast h1
    norm_num at b1 b2
    have hge : 2 ^ 32 ≤ t := by
      have : (2 : ℝ) ^ 32 ≤ t := by norm_num; linarith
      exact_mod_cast this
    have t6 := t5 (by
      norm_num at hge
      simp [fadeIn, arriving, Flat]
      omega)
    rw [fadeIn_curve t1, if_neg (by omega)] at t6
    obtain ⟨c1, c2⟩ := abs_le.mp t6
    norm_num at c1 c2
    rw [abs_le]
    norm_num
    constructor <;> linarith

/-- An exponential ramp of the gain from its default of 1 to 4 over one second: after half a second the gain is 2, to a part
in 2000. -/
example (len : Nat) (hl : 24000 < len) : ∃ d o, OneEffect plain 1 (.gain 1) 16 1 48000
      (dynChanges [request .exponential "gain" ⟨4, 0, 2 ^ 32⟩]) [] (dynCall d [request .exponential "gain" ⟨4, 0, 2 ^ 32⟩] 1 len) o ∧
    ∃ y, o.sample? 0 24000 = some y ∧ |Real.log (y / 2)| ≤ 1 / 2000 := by
  obtain ⟨d, o, h⟩ := dyn_runs (.gain 1) trivial trivial ⟨le_rfl, le_rfl⟩ [request .exponential "gain" ⟨4, 0, 2 ^ 32⟩]
    (by simp [request, ParameterRequest.name, FxKind.names]) 1 len
  refine ⟨d, o, h, ?_⟩
  obtain ⟨es, e1, e2⟩ := h.stream trivial
  have hz : framesIn ([] : List (Call ℝ FxNode ParameterRequest)) = 0 := rfl
  have hlen : framesIn ([] ++ [dynCall d [request .exponential "gain" ⟨4, 0, 2 ^ 32⟩] 1 len]) = len := by
    simp [framesIn, dynCall, Buf.frameCount]
  have hlog4 : 0 ≤ Real.log 4 := Real.log_nonneg (by norm_num)
  have hlog4' : Real.log 4 ≤ 2 := by
    have : (4 : ℝ) = 2 ^ 2 := by norm_num
    rw [this, Real.log_pow]
    have := Real.log_le_sub_one_of_pos (show (0 : ℝ) < 2 by norm_num)
    push_cast
    linarith
  obtain ⟨t, t1, t2, t3, t4, t5, _⟩ := (C90_exponential (.gain 1) 1 "gain" 16 48000 (by norm_num) (by norm_num) _ 0
    [⟨4, 0, 2 ^ 32⟩] (by
      intro j
      by_cases hj : j = 0 <;> simp [hj, dynChanges, request, ParameterRequest.name]) _ es e1 0
      (by simp [framesIn, Timestamp.fromSamples, Timestamp.fromSeconds, Timestamp.roundHalfEven])
      (by simp [FxKind.default]) (by simp) 48000 2 48000 (by norm_num) (by norm_num)
      (by constructor <;> simp [arriving]; norm_num) (by simp; norm_num) (by
        intro x hx y hy
        simp only [FxKind.default, List.map_cons, List.map_nil, List.mem_cons, List.not_mem_nil, or_false] at hx hy
        rcases hx with rfl | rfl <;> rcases hy with rfl | rfl <;> simp [Real.log_inv] <;> linarith) 24000 (by omega)).2 (by simp [framesIn])
  refine ⟨_, by rw [e2 trivial 0 24000 Nat.one_pos hl, if_pos ⟨Nat.one_pos, Nat.one_pos⟩], ?_⟩
  simp only [FxKind.effect, hz, Nat.zero_add]
  rw [dyn_input _ _ _ _ _ hl, one_mul]
  obtain ⟨b1, b2⟩ := abs_le.mp t2
  norm_num at b1 b2
  have h0 : (0 : ℝ) ≤ t := by exact_mod_cast t1
  have hcurve : curve exponential ((FxKind.gain 1).default "gain") ([⟨4, 0, 2 ^ 32⟩].map (arriving 0)) t =
      (4 : ℝ) ^ ((t : ℝ) / 2 ^ 32) := by
    simp only [List.map_cons, List.map_nil, arriving, curve, exponential, FxKind.default]
    norm_num
    rw [if_neg (by linarith), if_pos (by linarith)]
  rw [hcurve] at t4 t5
  rw [Real.log_div t3.ne' t4.ne', Real.log_rpow (by norm_num)] at t5
  rw [Real.log_div t3.ne' (by norm_num)]
  have h42 : Real.log 4 = 2 * Real.log 2 := by
    rw [show (4 : ℝ) = 2 ^ 2 by norm_num, Real.log_pow]; push_cast; ring
  obtain ⟨c1, c2⟩ := abs_le.mp t5
  have hx : |(t : ℝ) / 2 ^ 32 - 1 / 2| ≤ 1 / 10 ^ 9 := by
    rw [abs_le]
    norm_num
    constructor <;> linarith
  have hy : |(t : ℝ) / 2 ^ 32 * Real.log 4 - Real.log 2| ≤ 1 / 10 ^ 9 * 2 := by
    rw [show (t : ℝ) / 2 ^ 32 * Real.log 4 - Real.log 2 = ((t : ℝ) / 2 ^ 32 - 1 / 2) * Real.log 4 by rw [h42]; ring, abs_mul,
      abs_of_nonneg hlog4]
    exact mul_le_mul hx hlog4' hlog4 (by norm_num)
  obtain ⟨d1, d2⟩ := abs_le.mp hy
  generalize (t : ℝ) / 2 ^ 32 * Real.log 4 = z at *
  norm_num at c1 c2 d1 d2
  rw [abs_le]
  constructor <;> linarith

end Fx
end Rawdio
