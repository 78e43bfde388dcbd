import Mathlib.Tactic.Linarith
import Mathlib.Tactic.NormNum
import Mathlib.Tactic.FieldSimp
import Verif.Lemmas.Compressor
import Verif.Props.Level
import Verif.Props.Follower

/-! # Properties of the compressor (C52, C69) -/

namespace Rawdio
namespace Compressor

/-- Settings within the ranges of `effects/compressor/compressor_parameters.rs:3-22`. -/
structure InRange (knee threshold ratio : ℝ) : Prop where
  knee : 0 ≤ knee
  threshold : -128 ≤ threshold
  ratio : 1 ≤ ratio

theorem fromDb_zero : (Level.fromDb 0).linear = 1 := by
  unfold Level.fromDb Level.minusInfinityDecibels
  rw [if_neg (by norm_num)]
  simp

theorem fromDb_le_one {x : ℝ} (h : x ≤ 0) : 0 ≤ (Level.fromDb x).linear ∧ (Level.fromDb x).linear ≤ 1 := by
  unfold Level.fromDb Level.minusInfinityDecibels
  split
  · exact ⟨le_refl _, zero_le_one⟩
  · refine ⟨(Real.rpow_pos_of_pos (by norm_num) _).le, ?_⟩
    rw [← Real.rpow_zero 10]
    exact Real.rpow_le_rpow_of_exponent_le (by norm_num) (by linarith)

theorem fromDb_mono {x y : ℝ} (h : x ≤ y) : (Level.fromDb x).linear ≤ (Level.fromDb y).linear := by
  unfold Level.fromDb Level.minusInfinityDecibels
  split
  · split
    · exact le_refl _
    · exact (Real.rpow_pos_of_pos (by norm_num) _).le
  · rw [if_neg (by linarith)]
    exact Real.rpow_le_rpow_of_exponent_le (by norm_num) (by linarith)

/-- The output level is never above the input level. -/
theorem outputDb_le {x k t r y : ℝ} (h : InRange k t r) (hy : outputDb x k t r = some y) : y ≤ x := by
  obtain ⟨hk, _, hr⟩ := h
  have hinv : 1 / r ≤ 1 := by rw [div_le_one (by linarith)]; exact hr
  have hinv0 : 0 < 1 / r := by positivity
  unfold outputDb at hy
  simp only at hy
  split at hy
  · cases hy; exact le_refl _
  · split at hy
    · rename_i h1 h2
      cases hy
      have : t ≤ x := by linarith
      have : (x - t) / r ≤ x - t := div_le_self (by linarith) hr
      linarith
    · split at hy
      · cases hy
      · rename_i h1 h2 h3
        cases hy
        have hk' : 0 < 2 * k := lt_of_le_of_ne (by linarith) (Ne.symm h3)
        have : ((1 / r - 1) * (x - t + 1 / 2 * k) * (x - t + 1 / 2 * k)) / (2 * k) ≤ 0 := by
          apply div_nonpos_of_nonpos_of_nonneg _ hk'.le
          rw [mul_assoc]
          exact mul_nonpos_of_nonpos_of_nonneg (by linarith) (mul_self_nonneg _)
        linarith

/-- C52: for every level and all settings in range, where the gain is a number at all it is in [0, 1]; it is 1
below the threshold. -/
theorem C52_gain_partial (envelope : Level) (k t r g : ℝ) (h : InRange k t r)
    (hg : calculateGainReduction envelope k t r = some g) : 0 ≤ g ∧ g ≤ 1 ∧ (envelope.asDb < t → g = 1) := by
  unfold calculateGainReduction at hg
  obtain ⟨y, hy, rfl⟩ := Option.map_eq_some_iff.mp hg
  have hle := outputDb_le h hy
  obtain ⟨h1, h2⟩ := fromDb_le_one (show y - envelope.asDb ≤ 0 by linarith)
  refine ⟨h1, h2, ?_⟩
  intro hlt
  have : y = envelope.asDb := by
    have hk := h.knee
    unfold outputDb at hy
    simp only at hy
    rw [if_pos (by linarith)] at hy
    exact (Option.some.inj hy).symm
  rw [this, sub_self, fromDb_zero]

/-- C52: the gain is a number except exactly at the threshold with knee 0. -/
theorem C52_number_iff (envelope : Level) (k t r : ℝ) :
    (∃ g, calculateGainReduction envelope k t r = some g) ↔ ¬ (k = 0 ∧ envelope.asDb = t) := by
  unfold calculateGainReduction outputDb
  simp only
  constructor
  · rintro ⟨g, hg⟩ ⟨rfl, ht⟩
    rw [if_neg (by linarith), if_neg (by linarith), if_pos (by ring)] at hg
    cases hg
  · intro h
    split
    · exact ⟨_, rfl⟩
    · split
      · exact ⟨_, rfl⟩
      · rename_i h1 h2
        rw [if_neg]
        · exact ⟨_, rfl⟩
        · intro hk
          have hk : k = 0 := by linarith
          subst hk
          exact h ⟨rfl, by linarith⟩

/-- C52 is violated with the default settings (threshold 0 dB, knee 0, ratio 3) and a level of exactly 1. -/
theorem C52_gain_violated : calculateGainReduction (Level.fromLinear 1) 0 0 3 = none := by
  have h := (C52_number_iff (Level.fromLinear 1) 0 0 3).not.mpr (by
    rw [not_not]
    refine ⟨rfl, ?_⟩
    unfold Level.asDb Level.fromLinear
    simp only
    rw [if_neg (by norm_num)]
    simp)
  by_contra hne
  obtain ⟨g, hg⟩ := Option.ne_none_iff_exists'.mp hne
  exact h ⟨g, hg⟩

/-- C52 is violated on silence when the threshold is at the end of its range. -/
theorem C52_silence_violated (r : ℝ) : calculateGainReduction (Level.fromLinear 0) 0 (-128) r = none := by
  have h := (C52_number_iff (Level.fromLinear 0) 0 (-128) r).not.mpr (by
    rw [not_not]
    refine ⟨rfl, ?_⟩
    unfold Level.asDb Level.fromLinear Level.minusInfinityDecibels
    simp only
    rw [if_pos (by norm_num)])
  by_contra hne
  obtain ⟨g, hg⟩ := Option.ne_none_iff_exists'.mp hne
  exact h ⟨g, hg⟩

/-- C52: above the threshold and the knee a louder level never has more gain. -/
theorem C52_antitone (a b : Level) (k t r : ℝ) (h : InRange k t r) (ha : t + 1 / 2 * k < a.asDb)
    (hab : a.asDb ≤ b.asDb) : ∃ ga gb, calculateGainReduction a k t r = some ga ∧
      calculateGainReduction b k t r = some gb ∧ gb ≤ ga := by
  have e : ∀ l : Level, t + 1 / 2 * k < l.asDb → calculateGainReduction l k t r =
      some (Level.fromDb (t + (l.asDb - t) / r - l.asDb)).linear := by
    intro l hl
    unfold calculateGainReduction outputDb
    simp only
    rw [if_neg (by linarith), if_pos hl]
    rfl
  refine ⟨_, _, e a ha, e b (by linarith), fromDb_mono ?_⟩
  have hr := h.ratio
  have h1 : (b.asDb - a.asDb) / r ≤ b.asDb - a.asDb := div_le_self (by linarith) hr
  have h2 : (b.asDb - t) / r = (a.asDb - t) / r + (b.asDb - a.asDb) / r := by ring
  linarith

example : InRange 6 (-10) 4 := ⟨by norm_num, by norm_num, by norm_num⟩

/-- The level that comes out when the envelope has the given level in decibels. -/
noncomputable def levelOut (x k t r : ℝ) : Option ℝ :=
  (calculateGainReduction (Level.fromDb x) k t r).map fun g => (Level.fromDb x).linear * g

theorem levelOut_eq {x k t r y : ℝ} (hx : -128 < x) (hy : outputDb x k t r = some y) (hd : -128 < y - x) :
    levelOut x k t r = some ((10 : ℝ) ^ (y / 20)) := by
  unfold levelOut calculateGainReduction
  rw [Level.C56_db_round_trip, max_eq_left hx.le, hy]
  simp only [Option.map_some]
  unfold Level.fromDb Level.minusInfinityDecibels
  rw [if_neg (not_le.mpr hd), if_neg (not_le.mpr hx)]
  simp only
  rw [← Real.rpow_add (by norm_num)]
  congr 2
  ring

/-- C69, for knee 0: what comes out never gets quieter when what goes in gets louder.  (The reduction has to be
less than 128 dB, where it cuts off.)  Missing for the full claim: knees above 0. -/
theorem C69_louder_in_louder_out_partial (x y t r : ℝ) (h : InRange 0 t r) (hx : -128 < x) (hxy : x ≤ y)
    (hx0 : x ≠ t) (hy0 : y ≠ t) (hred : (y - t) * (1 - 1 / r) < 128) :
    ∃ a b, levelOut x 0 t r = some a ∧ levelOut y 0 t r = some b ∧ a ≤ b := by
  have hr := h.ratio
  have hrp : 0 < r := by linarith
  have hinv : 1 / r ≤ 1 := by rw [div_le_one hrp]; exact hr
  have hinv0 : 0 < 1 / r := by positivity
  have key : ∀ z, z ≠ t → -128 < z → z ≤ y → ∃ o, outputDb z 0 t r = some o ∧ -128 < o - z ∧
      (z < t → o = z) ∧ (t < z → o = t + (z - t) / r) := by
    intro z hz h128 hzy
    unfold outputDb
    simp only
    by_cases h1 : z < t
    · rw [if_pos (by linarith)]
      exact ⟨z, rfl, by linarith, fun _ => rfl, fun h2 => absurd h2 (by linarith)⟩
    · have h2 : t < z := lt_of_le_of_ne (not_lt.mp h1) (Ne.symm hz)
      rw [if_neg (by linarith), if_pos (by linarith)]
      refine ⟨_, rfl, ?_, fun h3 => absurd h3 h1, fun _ => rfl⟩
      have h3 : (z - t) / r = (z - t) * (1 / r) := by ring
      have h4 : (z - t) * (1 - 1 / r) ≤ (y - t) * (1 - 1 / r) := mul_le_mul_of_nonneg_right (by linarith) (by linarith)
      rw [h3]
      nlinarith
  obtain ⟨o1, a1, a2, a3, a4⟩ := key x hx0 hx hxy
  obtain ⟨o2, b1, b2, b3, b4⟩ := key y hy0 (by linarith) (le_refl _)
  refine ⟨_, _, levelOut_eq hx a1 a2, levelOut_eq (by linarith) b1 b2, ?_⟩
  apply Real.rpow_le_rpow_of_exponent_le (by norm_num)
  have : o1 ≤ o2 := by
    rcases lt_or_gt_of_ne hx0 with hxt | hxt
    · rw [a3 hxt]
      rcases lt_or_gt_of_ne hy0 with hyt | hyt
      · rw [b3 hyt]; exact hxy
      · rw [b4 hyt]
        have : 0 ≤ (y - t) / r := div_nonneg (by linarith) hrp.le
        linarith
    · have hyt : t < y := by linarith
      rw [a4 hxt, b4 hyt]
      have : (x - t) / r ≤ (y - t) / r := div_le_div_of_nonneg_right (by linarith) hrp.le
      linarith
  linarith

example : ∃ a b, levelOut (-20) 0 (-10) 4 = some a ∧ levelOut 0 0 (-10) 4 = some b ∧ a ≤ b :=
  C69_louder_in_louder_out_partial (-20) 0 (-10) 4 ⟨le_refl _, by norm_num, by norm_num⟩ (by norm_num) (by norm_num)
    (by norm_num) (by norm_num) (by norm_num)

/-- C69 is violated by every knee above 0 with every ratio above 1: just above the knee the output is
quieter than just below it. -/
theorem C69_louder_in_louder_out_violated (k t r : ℝ) (h : InRange k t r) (hk : 0 < k) (hk2 : k ≤ 24) (hr : 1 < r) :
    ∃ x y a b, x < y ∧ levelOut x k t r = some a ∧ levelOut y k t r = some b ∧ b < a := by
  have ht := h.threshold
  have hrp : 0 < r := by linarith
  have hinv : 1 / r < 1 := by rw [div_lt_one hrp]; exact hr
  have hinv0 : 0 < 1 / r := by positivity
  have hd : 0 < k / 2 * (1 - 1 / r) := mul_pos (by linarith) (by linarith)
  obtain ⟨d, hdd⟩ : ∃ d, d = min (k / 2 * (1 - 1 / r) / 4) (k / 4) := ⟨_, rfl⟩
  have hd1 : d ≤ k / 2 * (1 - 1 / r) / 4 := by rw [hdd]; exact min_le_left _ _
  have hd2 : d ≤ k / 4 := by rw [hdd]; exact min_le_right _ _
  have hd0 : 0 < d := by rw [hdd]; exact lt_min (by linarith) (by linarith)
  have o1 : outputDb (t + 1 / 2 * k - d) k t r = some (t + 1 / 2 * k - d) := by
    unfold outputDb
    simp only
    rw [if_pos (by linarith)]
  have o2 : outputDb (t + 1 / 2 * k + d) k t r = some (t + (t + 1 / 2 * k + d - t) / r) := by
    unfold outputDb
    simp only
    rw [if_neg (by linarith), if_pos (by linarith)]
  have h3 : (t + 1 / 2 * k + d - t) / r = (1 / 2 * k + d) * (1 / r) := by ring
  refine ⟨t + 1 / 2 * k - d, t + 1 / 2 * k + d, _, _, by linarith, levelOut_eq (by linarith) o1 (by linarith),
    levelOut_eq (by linarith) o2 (by rw [h3]; nlinarith), ?_⟩
  apply Real.rpow_lt_rpow_of_exponent_lt (by norm_num)
  rw [h3]
  nlinarith

example : ∃ x y a b, x < y ∧ levelOut x 6 (-10) 4 = some a ∧ levelOut y 6 (-10) 4 = some b ∧ b < a :=
  C69_louder_in_louder_out_violated 6 (-10) 4 ⟨by norm_num, by norm_num, by norm_num⟩ (by norm_num) (by norm_num)
    (by norm_num)

/-- A series of blocks with their parameter values. -/
noncomputable def run (toDuration : ℝ → Nat) (isZero isOne : ℝ → Bool) (k : Compressor) :
    List (CompressorValues × Grid ℝ) → Res (List (Grid (Option ℝ)))
  | [] => .ok []
  | (p, input) :: bs => do
    let (k, out) ← k.processAudio toDuration isZero isOne p input
    let outs ← run toDuration isZero isOne k bs
    .ok (out :: outs)

/-- What the blocks of a series have to be like: the channels of the node, not too long, samples within `M`, and
settings in range. -/
structure BlockOk (channels maximum : Nat) (M : ℝ) (b : CompressorValues × Grid ℝ) : Prop where
  channels : b.2.channels = channels
  frames : b.2.frames ≤ maximum
  samples : ∀ c f, c < b.2.channels → f < b.2.frames → |b.2.val c f| ≤ M
  settings : ∀ f, f < b.2.frames → InRange (b.1.knee f) (b.1.threshold f) (b.1.ratio f)

/-- Each block in its relation to its input. -/
def Each (R : CompressorValues × Grid ℝ → Grid (Option ℝ) → Prop) :
    List (CompressorValues × Grid ℝ) → List (Grid (Option ℝ)) → Prop
  | [], [] => True
  | b :: bs, o :: os => R b o ∧ Each R bs os
  | _, _ => False

theorem run_each (toDuration : ℝ → Nat) {isZero isOne : ℝ → Bool} (hz : ∀ x, isZero x = true → x = 0)
    (ho : ∀ x, isOne x = true → x = 1) (channels maximum : Nat) (hc : 0 < channels) (M : ℝ) (hM : 0 ≤ M)
    (R : CompressorValues × Grid ℝ → Grid (Option ℝ) → Prop)
    (hR : ∀ b out, BlockOk channels maximum M b → out.channels = b.2.channels → out.frames = b.2.frames →
      (∃ envelope : Nat → ℝ, (∀ f, 0 ≤ envelope f ∧ envelope f ≤ M) ∧ ∀ c f, c < b.2.channels → f < b.2.frames →
        (∀ g, calculateGainReduction (Level.fromLinear (envelope f)) (b.1.knee f) (b.1.threshold f) (b.1.ratio f) =
            some g → out.val c f = some (b.2.val c f * g * b.1.wet f + b.2.val c f * b.1.dry f))) → R b out)
    (bs : List (CompressorValues × Grid ℝ)) : ∀ k : Compressor, k.Ok channels maximum M →
    (∀ b ∈ bs, BlockOk channels maximum M b) →
    ∃ outs, k.run toDuration isZero isOne bs = .ok outs ∧ Each R bs outs := by
  induction bs with
  | nil => intro k _ _; exact ⟨[], rfl, trivial⟩
  | cons b bs ih =>
    intro k hk hb
    obtain ⟨p, input⟩ := b
    have hb0 := hb _ List.mem_cons_self
    have hch : input.channels = channels := hb0.channels
    obtain ⟨k', out, env, e1, e2, e3, e4, e5, e6⟩ := processAudio_ok toDuration hz ho k p input maximum M hM
      (by rw [hch]; exact hk) hb0.frames hb0.samples (by omega)
    obtain ⟨outs, d1, d2⟩ := ih k' (by rw [← hch]; exact e2) (fun b hb' => hb b (List.mem_cons_of_mem _ hb'))
    refine ⟨out :: outs, ?_, hR _ _ hb0 e3 e4 ⟨env, e5, e6⟩, d2⟩
    unfold run
    simp only [e1, d1, bind, Except.bind]

/-- C52, for whole signals: in every series of blocks, if no sample is as loud as the threshold (which is above
-128 dB), every output sample is the input times the sum of wet and dry: the compressor does nothing else,
whatever the attack, release, ratio and knee. -/
theorem C52_transparent (toDuration : ℝ → Nat) (isZero isOne : ℝ → Bool) (hz : ∀ x, isZero x = true → x = 0)
    (ho : ∀ x, isOne x = true → x = 1) (channels sr maximum : Nat) (hc : 0 < channels) (hsr : 0 < sr)
    (M : ℝ) (hM : 0 ≤ M) (bs : List (CompressorValues × Grid ℝ)) (hb : ∀ b ∈ bs, BlockOk channels maximum M b)
    (ht : ∀ b ∈ bs, ∀ f, -128 < b.1.threshold f ∧ (Level.fromLinear M).asDb < b.1.threshold f) :
    ∃ outs, (new channels sr maximum).run toDuration isZero isOne bs = .ok outs ∧
      Each (fun b out => out.channels = b.2.channels ∧ out.frames = b.2.frames ∧ ∀ c f, c < b.2.channels →
        f < b.2.frames → out.val c f = some (b.2.val c f * (b.1.wet f + b.1.dry f))) bs outs := by
  have key : ∀ bs : List (CompressorValues × Grid ℝ), (∀ b ∈ bs, BlockOk channels maximum M b ∧
      ∀ f, -128 < b.1.threshold f ∧ (Level.fromLinear M).asDb < b.1.threshold f) →
      ∀ outs, Each (fun b out => (∀ f, -128 < b.1.threshold f ∧ (Level.fromLinear M).asDb < b.1.threshold f) →
        out.channels = b.2.channels ∧ out.frames = b.2.frames ∧ ∀ c f, c < b.2.channels →
        f < b.2.frames → out.val c f = some (b.2.val c f * (b.1.wet f + b.1.dry f))) bs outs →
      Each (fun b out => out.channels = b.2.channels ∧ out.frames = b.2.frames ∧ ∀ c f, c < b.2.channels →
        f < b.2.frames → out.val c f = some (b.2.val c f * (b.1.wet f + b.1.dry f))) bs outs := by
    intro bs
    induction bs with
    | nil => intro _ outs h; cases outs with
      | nil => trivial
      | cons o os => exact h
    | cons b bs ih =>
      intro hb outs h
      cases outs with
      | nil => exact h
      | cons o os =>
        exact ⟨h.1 (hb b List.mem_cons_self).2, ih (fun b hb' => hb b (List.mem_cons_of_mem _ hb')) os h.2⟩
  obtain ⟨outs, e1, e2⟩ := run_each toDuration hz ho channels maximum hc M hM
    (fun b out => (∀ f, -128 < b.1.threshold f ∧ (Level.fromLinear M).asDb < b.1.threshold f) →
        out.channels = b.2.channels ∧ out.frames = b.2.frames ∧ ∀ c f, c < b.2.channels →
        f < b.2.frames → out.val c f = some (b.2.val c f * (b.1.wet f + b.1.dry f)))
    (by
      rintro b out hb h1 h2 ⟨env, h3, h4⟩ ht
      refine ⟨h1, h2, ?_⟩
      intro c f hc hf
      obtain ⟨ht1, ht2⟩ := ht f
      have hlt : (Level.fromLinear (env f)).asDb < b.1.threshold f := by
        by_cases hq : env f ≤ 1 / 10 ^ 9
        · unfold Level.asDb Level.fromLinear Level.minusInfinityDecibels
          simp only
          rw [if_pos hq]
          exact ht1
        · have hq := not_le.mp hq
          have hqM : 1 / 10 ^ 9 < M := lt_of_lt_of_le hq (h3 f).2
          unfold Level.fromLinear at ht2 ⊢
          rw [Level.asDb_eq hqM] at ht2
          rw [Level.asDb_eq hq]
          have hq0 : 0 < env f := lt_trans (by positivity) hq
          have : Real.logb 10 (env f) ≤ Real.logb 10 M := Real.logb_le_logb_of_le (by norm_num) hq0 (h3 f).2
          linarith
      obtain ⟨g, hg⟩ := (C52_number_iff (Level.fromLinear (env f)) (b.1.knee f) (b.1.threshold f) (b.1.ratio f)).mpr
        (fun h => absurd h.2 hlt.ne)
      have hg1 := (C52_gain_partial _ _ _ _ _ (hb.settings f hf) hg).2.2 hlt
      rw [h4 c f hc hf g hg, hg1]
      congr 1
      ring) bs (new channels sr maximum) (new_ok channels sr maximum hsr M hM) hb
  exact ⟨outs, e1, key bs (fun b hb' => ⟨hb b hb', ht b hb'⟩) outs e2⟩

/-- A block for the examples: default settings, one loud frame. -/
noncomputable def loud (x : ℝ) : CompressorValues × Grid ℝ :=
  (⟨fun _ => 0, fun _ => 10, fun _ => 3, fun _ => 0, fun _ => 0, fun _ => 1, fun _ => 0⟩, ⟨1, 1, fun _ _ => x⟩)

open Classical in
example : ∃ outs, (new 1 48000 512).run (fun _ => 0) (fun x => decide (x = 0)) (fun x => decide (x = 1))
    [loud (1 / 10), loud (1 / 2)] = .ok outs ∧ outs.map (fun o => o.val 0 0) = [some (1 / 10), some (1 / 2)] := by
  obtain ⟨outs, e1, e2⟩ := C52_transparent (fun _ => 0) (fun x => decide (x = 0)) (fun x => decide (x = 1))
    (fun x h => of_decide_eq_true h) (fun x h => of_decide_eq_true h) 1 48000 512 (by omega) (by omega) (1 / 2)
    (by norm_num) [loud (1 / 10), loud (1 / 2)] (by
      intro b hb
      simp only [List.mem_cons, List.not_mem_nil, or_false] at hb
      rcases hb with rfl | rfl
      · exact ⟨rfl, by simp [loud], fun _ _ _ _ => by show |(1 / 10 : ℝ)| ≤ 1 / 2; rw [abs_of_pos] <;> norm_num,
          fun _ _ => ⟨le_refl _, by simp [loud], by norm_num [loud]⟩⟩
      · exact ⟨rfl, by simp [loud], fun _ _ _ _ => by show |(1 / 2 : ℝ)| ≤ 1 / 2; rw [abs_of_pos]; norm_num,
          fun _ _ => ⟨le_refl _, by simp [loud], by norm_num [loud]⟩⟩) (by
      have hdb : (Level.fromLinear (1 / 2)).asDb < 0 := by
        unfold Level.fromLinear
        rw [Level.asDb_eq (by norm_num)]
        have := Real.logb_neg (b := 10) (x := 1 / 2) (by norm_num) (by norm_num) (by norm_num)
        linarith
      intro b hb f
      simp only [List.mem_cons, List.not_mem_nil, or_false] at hb
      rcases hb with rfl | rfl <;> exact ⟨by simp [loud], hdb⟩)
  refine ⟨outs, e1, ?_⟩
  match outs, e2 with
  | [a, b], ⟨⟨_, _, h1⟩, ⟨_, _, h2⟩, _⟩ =>
    simp only [List.map_cons, List.map_nil]
    rw [h1 0 0 (by simp [loud]) (by simp [loud]), h2 0 0 (by simp [loud]) (by simp [loud])]
    simp [loud]

/-- C52, for whole signals: in every series of blocks, every output sample that is a number is at most the input
sample times the sum of wet and dry.  Missing for the full claim: the frames at which the gain is 0/0. -/
theorem C52_never_amplifies_partial (toDuration : ℝ → Nat) (isZero isOne : ℝ → Bool)
    (hz : ∀ x, isZero x = true → x = 0) (ho : ∀ x, isOne x = true → x = 1) (channels sr maximum : Nat)
    (hc : 0 < channels) (hsr : 0 < sr) (M : ℝ) (hM : 0 ≤ M) (bs : List (CompressorValues × Grid ℝ))
    (hb : ∀ b ∈ bs, BlockOk channels maximum M b) :
    ∃ outs, (new channels sr maximum).run toDuration isZero isOne bs = .ok outs ∧
      Each (fun b out => out.channels = b.2.channels ∧ out.frames = b.2.frames ∧ ∀ c f, c < b.2.channels →
        f < b.2.frames → 0 < b.1.knee f → 0 ≤ b.1.wet f → 0 ≤ b.1.dry f →
        ∃ y, out.val c f = some y ∧ |y| ≤ |b.2.val c f| * (b.1.wet f + b.1.dry f)) bs outs := by
  apply run_each toDuration hz ho channels maximum hc M hM _ _ bs _ (new_ok channels sr maximum hsr M hM) hb
  rintro b out hb h1 h2 ⟨env, h3, h4⟩
  refine ⟨h1, h2, ?_⟩
  intro c f hc hf hk hw hd
  obtain ⟨g, hg⟩ := (C52_number_iff (Level.fromLinear (env f)) (b.1.knee f) (b.1.threshold f) (b.1.ratio f)).mpr
    (fun h => absurd h.1 hk.ne')
  obtain ⟨g0, g1, _⟩ := C52_gain_partial _ _ _ _ _ (hb.settings f hf) hg
  refine ⟨_, h4 c f hc hf g hg, ?_⟩
  have e : b.2.val c f * g * b.1.wet f + b.2.val c f * b.1.dry f = b.2.val c f * (g * b.1.wet f + b.1.dry f) := by ring
  have hgw : g * b.1.wet f ≤ b.1.wet f := mul_le_of_le_one_left hw g1
  have hgw0 : 0 ≤ g * b.1.wet f := mul_nonneg g0 hw
  rw [e, abs_mul, abs_of_nonneg (by linarith : 0 ≤ g * b.1.wet f + b.1.dry f)]
  exact mul_le_mul_of_nonneg_left (by linarith) (abs_nonneg _)

/-- C52 is violated for whole signals: with the default settings but attack 0, a single full-scale sample into a
new compressor comes out as no number. -/
theorem C52_block_violated (isZero isOne : ℝ → Bool) (hz : ∀ x, isZero x = true → x = 0) : ∃ k' out,
    (new 1 48000 512).processAudio (fun _ => 0) isZero isOne (loud 1).1 (loud 1).2 = .ok (k', out) ∧
      out.val 0 0 = none := by
  have hv : (((Follower.new 48000 1000000 10000000).setAttackTime 0).setReleaseTime 0).process 1 =
      ({ ((Follower.new 48000 1000000 10000000).setAttackTime 0).setReleaseTime 0 with level := 1 }, 1) := by
    unfold Follower.setAttackTime Follower.setReleaseTime Follower.new Follower.process Follower.calculateCoefficient
    norm_num
  have hrow : followChannel (fun _ => 0) (loud 1).1 ((loud 1).2.val 0) 0 1 (Follower.new 48000 1000000 10000000) =
      ({ ((Follower.new 48000 1000000 10000000).setAttackTime 0).setReleaseTime 0 with level := 1 }, [1]) := by
    simp only [followChannel, loud, hv]
  unfold processAudio processEnvelope
  rw [if_pos (by simp [loud, new])]
  simp only [bind, Except.bind]
  rw [if_pos (by simp [loud, new])]
  have hrows : (List.range (loud 1).2.channels).map (fun c => followChannel (fun _ => 0) (loud 1).1 ((loud 1).2.val c) 0
      (min (loud 1).2.frames (new 1 48000 512).maximumFrameCount)
      ((new 1 48000 512).envelopes.getD c ⟨0, 0, 0, 0, 0, 0⟩)) =
      [({ ((Follower.new 48000 1000000 10000000).setAttackTime 0).setReleaseTime 0 with level := 1 }, [1])] := by
    rw [← hrow]
    simp [loud, new, List.range_succ]
  rw [hrows]
  refine ⟨_, _, rfl, ?_⟩
  simp only [List.map_cons, List.map_nil]
  generalize hG : (fun f => calculateGainReduction (Level.fromLinear (meanEnvelope [[1]]
    (loud 1).2.channels f)) ((loud 1).1.knee f) ((loud 1).1.threshold f) ((loud 1).1.ratio f)) = G
  have hg : G 0 = none := by
    rw [← hG]
    have hm : meanEnvelope [[1]] (loud 1).2.channels 0 = 1 := by
      simp [meanEnvelope, loud, List.range_succ]
    simp only [hm]
    exact C52_gain_violated
  have h1 := applyGain_none (isZero := isZero) (isOne := isOne) G
    ⟨(loud 1).2.channels, (loud 1).2.frames, fun c f => some ((loud 1).2.val c f)⟩ 0 0 (by simp [loud]) hg
  have h2 : ∀ g : Grid (Option ℝ), 0 < g.frames → g.val 0 0 = none →
      (applyGain isZero isOne (fun f => some ((loud 1).1.wet f)) g).val 0 0 = none := by
    intro g hfr hn
    unfold applyGain
    rw [if_neg]
    · split
      · exact hn
      · simp only [hn]
        rfl
    · intro h
      have := List.all_eq_true.mp h 0 (List.mem_range.mpr hfr)
      simp only [loud, Option.any_some] at this
      exact one_ne_zero (hz 1 this)
  rw [h2 _ (by rw [(applyGain_frames _ _).1]; simp [loud]) h1]
  rfl

end Compressor
end Rawdio
