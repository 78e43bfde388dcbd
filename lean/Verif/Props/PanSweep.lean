import Verif.Props.OfflineExample
import Verif.Props.Automation
import Verif.Lemmas.PanSweep

/-!
# A chord that moves from side to side (C91)
-/

namespace Rawdio
namespace OfflineExample

open Processor Network PanSweep

variable {N : Platform}

/-- C91: the example that renders a chord to a file: every frame is that of sines at the frequencies and levels of the
oscillators, times the gain, going from left to right in the first two seconds and back in the next two. The error is at
most nine times the step of the pan from frame to frame, and one part in a million, of the sum of the levels. It does not
grow as time goes by, and does not depend on how the render is cut into process calls. Before the calls of the program
arrive, and on further channels, it is silent. -/
theorem C91_sweep (hz : ∀ x, N.isZero x = true → x = 0) (ho : ∀ x, N.isOne x = true → x = 1) (mf mc sr : Nat)
    (hm : 0 < mf) (hmc : 2 ≤ mc) (hsr : 14 ≤ sr) (hle : sr ≤ 2 ^ 28) (voices : List Voice)
    (hf : ∀ v ∈ voices, 0 < v.frequency) (g p : Id) (hd : Distinct voices g p) (level : ℝ)
    (calls0 : List (ApiCall FxNode ParameterRequest))
    (hcalls : program sr mf voices g p level panMoves = .ok calls0)
    (waiting ks : List (Call ℝ FxNode ParameterRequest)) (hv : ∀ k ∈ waiting ++ ks, k.Valid)
    (hdel : Delivered (fun i => if i = 0 then calls0 else []) waiting ks) (E : Processor ℝ FxNode)
    (hE : calls (Fx.ops N) (new sr mc mf) (waiting ++ ks) = .ok E) :
    ∀ i k E1 o E2, (waiting ++ ks)[i]? = some k →
      calls (Fx.ops N) (new sr mc mf) ((waiting ++ ks).take i) = .ok E1 →
      E1.process (Fx.ops N) k.env k.commands k.input k.output = .ok (o, E2) →
      ∀ c f F, c < k.output.channelCount → f < k.output.frameCount →
        F = framesIn (ks.take (i - waiting.length)) + f →
        ((i < waiting.length ∨ 2 ≤ c) → o.sample? c f = some 0) ∧
        (waiting.length ≤ i → c < 2 → ∃ y, o.sample? c f = some y ∧
          |y - chord (voices.map fun v => (v.frequency, v.level)) ((F + 1) / sr) * level *
              factor c (position (F / sr))| ≤
            (voices.map fun v => |v.level|).sum * |level| * (9 / sr + 1 / 10 ^ 6)) := by
  obtain ⟨es, e1, e2⟩ := C86_voices hz ho mf mc sr hm hmc (by omega) (hle.trans (by norm_num)) voices hf g p hd level panMoves
    calls0 hcalls waiting ks hv hdel E hE
  intro i k E1 o E2 hik h1 h2 c f F hc hf' hF
  have hy := e2 i k E1 o E2 hik h1 h2 c f F hc hf' hF
  constructor
  · intro h
    rw [hy, if_pos h]
  intro hi hc2
  rw [if_neg (by omega)] at hy
  refine ⟨_, hy, ?_⟩
  have hFl : F < framesIn ks := by
    rw [List.getElem?_append_right (by omega)] at hik
    have hlt : i - waiting.length < ks.length := by
      by_contra hn; rw [List.getElem?_eq_none (by omega)] at hik; cases hik
    have e : ks = ks.take (i - waiting.length) ++ k :: ks.drop (i - waiting.length + 1) := by
      conv_lhs => rw [← List.take_append_drop (i - waiting.length) ks]
      rw [List.drop_eq_getElem_cons hlt]
      rw [List.getElem?_eq_getElem hlt] at hik
      injection hik with hik
      rw [hik]
    rw [hF]
    conv_rhs => rw [e]
    simp only [framesIn, List.map_append, List.sum_append, List.map_cons, List.sum_cons]
    omega
  have hsr' : (14 : ℝ) ≤ sr := by exact_mod_cast hsr
  have hle' : (sr : ℝ) ≤ 2 ^ 28 := by exact_mod_cast hle
  have hpos : (0 : ℝ) < sr := by linarith
  have hT : (0 : Int) = Timestamp.fromSamples (framesIn (ks.take 0)) sr := by
    simp [framesIn, Timestamp.fromSamples, Timestamp.fromSeconds, Timestamp.roundHalfEven]
  obtain ⟨-, hcur⟩ := Fx.C90_linear (.pan 2) p "pan" mf sr (by omega) hle _ 0 panPoints (by
      intro j
      by_cases hj : j = 0
      · simp only [if_pos hj]
        rw [program_eq] at hcalls
        injection hcalls with hcalls
        rw [← allCalls] at hcalls
        subst hcalls
        rw [requests_own, if_neg (fun h => absurd h.2 (by decide)), if_pos ⟨rfl, rfl⟩]
        have : voices.filter (fun v => v.id = p ∧ "gain" = "pan") = [] := by
          rw [List.filter_eq_nil_iff]
          intro w hw h
          exact absurd (of_decide_eq_true h).2 (by decide)
        rw [this]
        have := congrArg (List.map fun r => (p, r)) panMoves_eq
        rw [List.map_map, List.map_map] at this
        exact this
      · simp only [if_neg hj]
        rfl) ks es e1 0 hT (by simp [panPoints]) (2 * sr) 2 (2 * sr) (by linarith) (by linarith)
      (by
        have e : (2 : ℝ) * sr * (2 ^ 32 / sr) = 2 * 2 ^ 32 := by field_simp
        refine ⟨?_, ?_⟩
        · rw [e]
          simp [panPoints, Automation.arriving]
          norm_num
        · simp [panPoints, Automation.arriving])
      (by
        have e : (2 : ℝ) * sr * (2 ^ 32 / sr) = 2 * 2 ^ 32 := by field_simp
        rw [e]
        simp [panPoints]
        norm_num)
      (by simp [panPoints, FxKind.default]; norm_num) F hFl
  obtain ⟨t, t1, t2, t3, -⟩ := hcur (by simp [framesIn])
  have hd0 : (FxKind.pan 2).default "pan" = 0 := rfl
  rw [hd0, panPoints_curve t1] at t3
  set x := (FxKind.pan 2).track sr es p "pan" F with hx
  set A := (voices.map fun v => |v.level|).sum with hA
  have hA0 : 0 ≤ A := List.sum_nonneg (by simp)
  have hpan : |x - position (F / sr)| ≤ 9 / sr + 5 / 10 ^ 7 := by
    have a1 := position_near ((t : ℝ) / 2 ^ 32) (F / sr)
    have a2 : |(t : ℝ) / 2 ^ 32 - F / sr| ≤ 3 / 2 / 2 ^ 32 := by
      rw [show (t : ℝ) / 2 ^ 32 - F / sr = ((t : ℝ) - F * (2 ^ 32 / sr)) / 2 ^ 32 by field_simp, abs_div,
        abs_of_pos (show (0 : ℝ) < 2 ^ 32 by norm_num)]
      exact div_le_div_of_nonneg_right t2 (by norm_num)
    have a3 : 8 * 2 / (2 * (sr : ℝ) - 3) ≤ 9 / sr := by
      rw [div_le_div_iff₀ (by linarith) hpos]
      linarith
    have a4 : 2 * (sr : ℝ) / 2 ^ 51 ≤ 3 / 10 ^ 7 := by
      rw [div_le_iff₀ (by norm_num)]
      linarith
    calc |x - position (F / sr)| ≤ |x - position ((t : ℝ) / 2 ^ 32)| + |position ((t : ℝ) / 2 ^ 32) - position (F / sr)| :=
          abs_sub_le _ _ _
      _ ≤ _ := by norm_num at *; linarith
  have hch := chord_near voices ((F + 1) / sr)
  rw [← hA] at hch
  simp only [← mul_div_assoc] at hch
  set s := (voices.map fun v => Oscillator.tableAt (Oscillator.makeSine 8192 1) (v.frequency * (F + 1) / sr) * v.level).sum
  set u := chord (voices.map fun v => (v.frequency, v.level)) ((F + 1) / sr) with hu
  have hu1 : |u| ≤ A := by
    have := chord_le (voices.map fun v => (v.frequency, v.level)) ((F + 1) / sr)
    rwa [List.map_map] at this
  have hs1 : |s| ≤ A * (1 + 1 / 10 ^ 7) := by
    have := abs_sub_abs_le_abs_sub s u
    linarith
  have hfac := factor_near c x (position (F / sr))
  have hfac1 : |factor c (position (F / sr))| ≤ 1 := factor_le (position_le _ (by positivity))
  change |s * level * factor c x - u * level * factor c (position (F / sr))| ≤ _
  rw [show s * level * factor c x - u * level * factor c (position (F / sr)) =
    level * (s * (factor c x - factor c (position (F / sr))) + (s - u) * factor c (position (F / sr))) by ring, abs_mul]
  rw [show A * |level| * (9 / sr + 1 / 10 ^ 6) = |level| * (A * (9 / sr + 1 / 10 ^ 6)) by ring]
  refine mul_le_mul_of_nonneg_left ?_ (abs_nonneg _)
  refine (abs_add_le _ _).trans ?_
  rw [abs_mul, abs_mul]
  have b1 : |s| * |factor c x - factor c (position (F / sr))| ≤ A * (1 + 1 / 10 ^ 7) * (9 / sr + 5 / 10 ^ 7) :=
    mul_le_mul hs1 (hfac.trans hpan) (abs_nonneg _) (by positivity)
  have b2 : |s - u| * |factor c (position (F / sr))| ≤ A * (1 / 10 ^ 7) * 1 :=
    mul_le_mul (by linarith) hfac1 (abs_nonneg _) (by positivity)
  have b3 : (9 : ℝ) / sr ≤ 1 := by rw [div_le_one hpos]; linarith
  nlinarith

/-- Two oscillators for a session of three calls. -/
example : ∃ calls0 E, program 48000 16 twoVoices 3 4 (1 / 2) panMoves = .ok calls0 ∧ Distinct twoVoices 3 4 ∧
    (∀ k ∈ [voicesCall []] ++ [voicesCall calls0, voicesCall []], k.Valid) ∧
    Delivered (fun i => if i = 0 then calls0 else []) [voicesCall []] [voicesCall calls0, voicesCall []] ∧
    calls (Fx.ops Fx.plain) (new 48000 2 16) ([voicesCall []] ++ [voicesCall calls0, voicesCall []]) = .ok E :=
  voices_session panMoves

end OfflineExample
end Rawdio
