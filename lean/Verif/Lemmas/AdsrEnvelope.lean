import Mathlib.Tactic.Linarith
import Mathlib.Tactic.Positivity
import Mathlib.Tactic.FieldSimp
import Verif.Spec.Adsr

/-! # The envelope of the ADSR node -/

namespace Rawdio
namespace AdsrEnvelope

/-- Settings and value are in their ranges. -/
structure Ok (e : AdsrEnvelope) : Prop where
  rate : 0 < e.sampleRate
  envelope : 0 ≤ e.envelope ∧ e.envelope ≤ 1
  attack : 0 ≤ e.attackCoefficient ∧ e.attackCoefficient ≤ 1
  decay : 0 ≤ e.decayCoefficient ∧ e.decayCoefficient ≤ 1
  sustain : 0 ≤ e.sustainLevel.linear ∧ e.sustainLevel.linear ≤ 1
  release : 0 ≤ e.releaseCoefficient ∧ e.releaseCoefficient ≤ 1

/-- Levels of events are in range. -/
def _root_.Rawdio.AdsrEventType.Ok : AdsrEventType → Prop
  | .setSustain l => 0 ≤ l.linear ∧ l.linear ≤ 1
  | _ => True

theorem coefficient_range {L : ℝ} (h0 : 0 < L) (h1 : L ≤ 1) (time : ℝ) {sr : Nat} (hsr : 0 < sr) :
    0 ≤ coefficient L time sr ∧ coefficient L time sr ≤ 1 := by
  unfold coefficient
  split
  · norm_num
  · rename_i ht
    refine ⟨(Real.exp_pos _).le, ?_⟩
    rw [Real.exp_le_one_iff]
    apply div_nonpos_of_nonpos_of_nonneg (Real.log_nonpos h0.le h1)
    have : (0 : ℝ) < sr := by exact_mod_cast hsr
    have : 0 < time := not_le.mp ht
    positivity

/-- How many steps a stage takes. -/
theorem coefficient_pow {L : ℝ} (h0 : 0 < L) (h1 : L < 1) (time : ℝ) {sr : Nat} (hsr : 0 < sr) (n : Nat) :
    coefficient L time sr ^ n ≤ L ↔ stageFrames time sr ≤ n := by
  have hs : (0 : ℝ) < sr := by exact_mod_cast hsr
  unfold coefficient stageFrames
  split
  · rename_i ht
    have : ⌈time * sr⌉₊ = 0 := by
      rw [Nat.ceil_eq_zero]
      exact mul_nonpos_of_nonpos_of_nonneg ht hs.le
    rw [this]
    cases n with
    | zero => simp [h1]
    | succ n => simp [h0.le]
  · rename_i ht
    have ht : 0 < time := not_le.mp ht
    have hpos : 0 < time * sr := by positivity
    have hc : 1 ≤ ⌈time * sr⌉₊ := Nat.one_le_iff_ne_zero.mpr (by
      intro h
      rw [Nat.ceil_eq_zero] at h
      linarith)
    rw [max_eq_right hc, Nat.ceil_le, ← Real.exp_nat_mul, ← Real.le_log_iff_exp_le h0]
    have hl : Real.log L < 0 := Real.log_neg h0 h1
    have e1 : (n : ℝ) * (Real.log L / (time * sr)) = Real.log L * (n / (time * sr)) := by ring
    rw [e1]
    constructor
    · intro h
      by_contra hlt
      have hlt := not_le.mp hlt
      have : (n : ℝ) / (time * sr) < 1 := by rw [div_lt_one hpos]; exact hlt
      nlinarith
    · intro h
      have : 1 ≤ (n : ℝ) / (time * sr) := by rw [one_le_div hpos]; exact h
      nlinarith

theorem attack_log : (attackTarget - 1) / attackTarget = 1 / 11 := by unfold attackTarget; norm_num

theorem decay_log (l : Level) : (l.linear - decayTarget) / (1 - decayTarget) = (10 * l.linear + 1) / 11 := by
  unfold decayTarget
  field_simp
  ring

theorem release_log (l : Level) (h : 0 ≤ l.linear) :
    (-releaseTarget) / (l.linear - releaseTarget) = 1 / (10 * l.linear + 1) := by
  unfold releaseTarget
  have : 0 < 10 * l.linear + 1 := by linarith
  rw [div_eq_div_iff (by linarith) this.ne']
  ring

theorem attack_range (t : ℝ) {sr : Nat} (hsr : 0 < sr) :
    0 ≤ attackCoefficientFor t sr ∧ attackCoefficientFor t sr ≤ 1 := by
  unfold attackCoefficientFor
  rw [attack_log]
  exact coefficient_range (by norm_num) (by norm_num) t hsr

theorem decay_range (t : ℝ) {l : Level} (h : 0 ≤ l.linear ∧ l.linear ≤ 1) {sr : Nat} (hsr : 0 < sr) :
    0 ≤ decayCoefficientFor t l sr ∧ decayCoefficientFor t l sr ≤ 1 := by
  unfold decayCoefficientFor
  rw [decay_log]
  exact coefficient_range (by linarith [h.1]) (by linarith [h.2]) t hsr

theorem release_range (t : ℝ) {l : Level} (h : 0 ≤ l.linear ∧ l.linear ≤ 1) {sr : Nat} (hsr : 0 < sr) :
    0 ≤ releaseCoefficientFor t l sr ∧ releaseCoefficientFor t l sr ≤ 1 := by
  unfold releaseCoefficientFor
  rw [release_log l h.1]
  have : 0 < 10 * l.linear + 1 := by linarith [h.1]
  exact coefficient_range (by positivity) (by rw [div_le_one this]; linarith [h.1]) t hsr

theorem Ok.apply {e : AdsrEnvelope} (h : e.Ok) {x : AdsrEventType} (hx : x.Ok) : (e.apply x).Ok := by
  cases x with
  | noteOn => exact ⟨h.rate, h.envelope, h.attack, h.decay, h.sustain, h.release⟩
  | noteOff => exact ⟨h.rate, h.envelope, h.attack, h.decay, h.sustain, h.release⟩
  | setAttack t => exact ⟨h.rate, h.envelope, attack_range t h.rate, h.decay, h.sustain, h.release⟩
  | setDecay t => exact ⟨h.rate, h.envelope, h.attack, decay_range t h.sustain h.rate, h.sustain, h.release⟩
  | setSustain l => exact ⟨h.rate, h.envelope, h.attack, decay_range _ hx h.rate, hx, release_range _ hx h.rate⟩
  | setRelease t => exact ⟨h.rate, h.envelope, h.attack, h.decay, h.sustain, release_range t h.sustain h.rate⟩

theorem Ok.process {e : AdsrEnvelope} (h : e.Ok) : e.process.Ok := by
  obtain ⟨h0, h1⟩ := h.envelope
  obtain ⟨s0, s1⟩ := h.sustain
  unfold AdsrEnvelope.process
  split
  · exact ⟨h.rate, by norm_num, h.attack, h.decay, h.sustain, h.release⟩
  · refine ⟨h.rate, ⟨?_, min_le_right _ _⟩, h.attack, h.decay, h.sustain, h.release⟩
    obtain ⟨a0, a1⟩ := h.attack
    refine le_min ?_ zero_le_one
    unfold processExponential attackTarget
    nlinarith
  · refine ⟨h.rate, ⟨le_max_of_le_right s0, max_le ?_ s1⟩, h.attack, h.decay, h.sustain, h.release⟩
    obtain ⟨a0, a1⟩ := h.decay
    unfold processExponential decayTarget
    nlinarith
  · exact ⟨h.rate, h.sustain, h.attack, h.decay, h.sustain, h.release⟩
  · refine ⟨h.rate, ⟨le_max_right _ _, max_le ?_ zero_le_one⟩, h.attack, h.decay, h.sustain, h.release⟩
    obtain ⟨a0, a1⟩ := h.release
    unfold processExponential releaseTarget
    nlinarith

/-- An envelope in range stays in range, and so are its values. -/
theorem Ok.values (events : List (Nat × AdsrEventType)) (hev : ∀ x ∈ events, x.2.Ok) (n : Nat) :
    ∀ (f : Nat) (e : AdsrEnvelope), e.Ok → (adsrValues events f n e).1.Ok ∧
      ∀ v ∈ (adsrValues events f n e).2, 0 ≤ v ∧ v ≤ 1 := by
  have hfold : ∀ (l : List (Nat × AdsrEventType)), (∀ x ∈ l, x.2.Ok) → ∀ e : AdsrEnvelope, e.Ok →
      (l.foldl (fun e x => e.apply x.2) e).Ok := by
    intro l
    induction l with
    | nil => intro _ e he; exact he
    | cons x l ih =>
      intro hl e he
      exact ih (fun y hy => hl y (List.mem_cons_of_mem _ hy)) _ (he.apply (hl x List.mem_cons_self))
  induction n with
  | zero => intro f e he; exact ⟨he, by simp [adsrValues]⟩
  | succ n ih =>
    intro f e he
    have h1 := (hfold (events.filter (fun x => x.1 = f))
      (fun x hx => hev x (List.mem_filter.mp hx).1) e he).process
    obtain ⟨h2, h3⟩ := ih (f + 1) _ h1
    refine ⟨h2, ?_⟩
    intro v hv
    simp only [adsrValues, List.mem_cons] at hv
    rcases hv with rfl | hv
    · exact h1.envelope
    · exact h3 v hv

/-- No note is started. -/
theorem idle_values (events : List (Nat × AdsrEventType)) (hev : ∀ x ∈ events, x.2 ≠ .noteOn) (n : Nat) :
    ∀ (f : Nat) (e : AdsrEnvelope), e.phase = .idle → (adsrValues events f n e).1.phase = .idle ∧
      ∀ v ∈ (adsrValues events f n e).2, v = 0 := by
  have hfold : ∀ (l : List (Nat × AdsrEventType)), (∀ x ∈ l, x.2 ≠ .noteOn) → ∀ e : AdsrEnvelope,
      e.phase = .idle → (l.foldl (fun e x => e.apply x.2) e).phase = .idle := by
    intro l
    induction l with
    | nil => intro _ e he; exact he
    | cons x l ih =>
      intro hl e he
      refine ih (fun y hy => hl y (List.mem_cons_of_mem _ hy)) _ ?_
      have := hl x List.mem_cons_self
      show (e.apply x.2).phase = .idle
      cases hx : x.2 with
      | noteOn => exact absurd hx this
      | noteOff => simp [AdsrEnvelope.apply, closed, he]
      | setAttack t => exact he
      | setDecay t => exact he
      | setSustain t => exact he
      | setRelease t => exact he
  induction n with
  | zero => intro f e he; exact ⟨he, by simp [adsrValues]⟩
  | succ n ih =>
    intro f e he
    have h1 := hfold (events.filter (fun x => x.1 = f))
      (fun x hx => hev x (List.mem_filter.mp hx).1) e he
    obtain ⟨e1, he1⟩ : ∃ e1, e1 = (events.filter (fun x => x.1 = f)).foldl (fun e x => e.apply x.2) e := ⟨_, rfl⟩
    rw [← he1] at h1
    have h4 : e1.process = { e1 with envelope := 0 } := by unfold AdsrEnvelope.process; rw [h1]
    obtain ⟨h2, h3⟩ := ih (f + 1) e1.process (by rw [h4]; exact h1)
    have h5 : adsrValues events f (n + 1) e = ((adsrValues events (f + 1) n e1.process).1,
        e1.process.envelope :: (adsrValues events (f + 1) n e1.process).2) := by rw [he1]; rfl
    rw [h5]
    refine ⟨h2, ?_⟩
    intro v hv
    simp only [List.mem_cons] at hv
    rcases hv with rfl | hv
    · rw [h4]
    · exact h3 v hv

/-! ## The stages -/

/-- `n` steps. -/
noncomputable def steps (n : Nat) (e : AdsrEnvelope) : AdsrEnvelope := AdsrEnvelope.process^[n] e

theorem steps_succ (n : Nat) (e : AdsrEnvelope) : e.steps (n + 1) = (e.steps n).process :=
  Function.iterate_succ_apply' _ _ _

theorem steps_add (n m : Nat) (e : AdsrEnvelope) : e.steps (n + m) = (e.steps n).steps m := by
  unfold steps
  rw [Nat.add_comm, Function.iterate_add_apply]

theorem plain_values (n : Nat) : ∀ (f : Nat) (e : AdsrEnvelope), adsrValues [] f n e =
    (e.steps n, (List.range n).map (fun i => (e.steps (i + 1)).envelope)) := by
  induction n with
  | zero => intro f e; rfl
  | succ n ih =>
    intro f e
    simp only [adsrValues, List.filter_nil, List.foldl_nil]
    rw [ih]
    have h1 : ∀ k, e.process.steps k = e.steps (k + 1) := fun k => (Function.iterate_succ_apply _ _ _).symm
    simp only [h1, List.range_succ_eq_map, List.map_cons, List.map_map]
    rfl

/-- The attack goes on as long as 1 is not reached. -/
theorem attack_steps {e : AdsrEnvelope} (hp : e.phase = .attack) (n : Nat)
    (hlt : ∀ k, 1 ≤ k → k ≤ n → attackTarget + e.attackCoefficient ^ k * (e.envelope - attackTarget) < 1) :
    e.steps n = { e with
      envelope := attackTarget + e.attackCoefficient ^ n * (e.envelope - attackTarget) } := by
  induction n with
  | zero => simp [steps]
  | succ n ih =>
    rw [steps_succ, ih (fun k h1 h2 => hlt k h1 (by omega))]
    have h := hlt (n + 1) (by omega) (le_refl _)
    have hv : processExponential (attackTarget + e.attackCoefficient ^ n * (e.envelope - attackTarget))
        attackTarget e.attackCoefficient =
        attackTarget + e.attackCoefficient ^ (n + 1) * (e.envelope - attackTarget) := by
      unfold processExponential; ring
    unfold AdsrEnvelope.process
    simp only [hp, hv]
    rw [min_eq_left h.le, if_neg (not_le.mpr h)]

theorem attack_done {e : AdsrEnvelope} (hp : e.phase = .attack) (n : Nat)
    (hlt : ∀ k, 1 ≤ k → k ≤ n → attackTarget + e.attackCoefficient ^ k * (e.envelope - attackTarget) < 1)
    (hge : 1 ≤ attackTarget + e.attackCoefficient ^ (n + 1) * (e.envelope - attackTarget)) :
    e.steps (n + 1) = { e with envelope := 1, phase := .decay } := by
  rw [steps_succ, attack_steps hp n hlt]
  have hv : processExponential (attackTarget + e.attackCoefficient ^ n * (e.envelope - attackTarget))
      attackTarget e.attackCoefficient =
      attackTarget + e.attackCoefficient ^ (n + 1) * (e.envelope - attackTarget) := by
    unfold processExponential; ring
  unfold AdsrEnvelope.process
  simp only [hp, hv]
  rw [min_eq_right hge, if_pos (le_refl _)]

theorem decay_steps {e : AdsrEnvelope} (hp : e.phase = .decay) (n : Nat)
    (hlt : ∀ k, 1 ≤ k → k ≤ n →
      e.sustainLevel.linear < decayTarget + e.decayCoefficient ^ k * (e.envelope - decayTarget)) :
    e.steps n = { e with envelope := decayTarget + e.decayCoefficient ^ n * (e.envelope - decayTarget) } := by
  induction n with
  | zero => simp [steps]
  | succ n ih =>
    rw [steps_succ, ih (fun k h1 h2 => hlt k h1 (by omega))]
    have h := hlt (n + 1) (by omega) (le_refl _)
    have hv : processExponential (decayTarget + e.decayCoefficient ^ n * (e.envelope - decayTarget))
        decayTarget e.decayCoefficient =
        decayTarget + e.decayCoefficient ^ (n + 1) * (e.envelope - decayTarget) := by
      unfold processExponential; ring
    unfold AdsrEnvelope.process
    simp only [hp, hv]
    rw [max_eq_left h.le, if_neg (not_le.mpr h)]

theorem decay_done {e : AdsrEnvelope} (hp : e.phase = .decay) (n : Nat)
    (hlt : ∀ k, 1 ≤ k → k ≤ n →
      e.sustainLevel.linear < decayTarget + e.decayCoefficient ^ k * (e.envelope - decayTarget))
    (hge : decayTarget + e.decayCoefficient ^ (n + 1) * (e.envelope - decayTarget) ≤ e.sustainLevel.linear) :
    e.steps (n + 1) = { e with envelope := e.sustainLevel.linear, phase := .sustain } := by
  rw [steps_succ, decay_steps hp n hlt]
  have hv : processExponential (decayTarget + e.decayCoefficient ^ n * (e.envelope - decayTarget))
      decayTarget e.decayCoefficient =
      decayTarget + e.decayCoefficient ^ (n + 1) * (e.envelope - decayTarget) := by
    unfold processExponential; ring
  unfold AdsrEnvelope.process
  simp only [hp, hv]
  rw [max_eq_right hge, if_pos (le_refl _)]

theorem release_steps {e : AdsrEnvelope} (hp : e.phase = .release) (n : Nat)
    (hlt : ∀ k, 1 ≤ k → k ≤ n →
      0 < releaseTarget + e.releaseCoefficient ^ k * (e.envelope - releaseTarget)) :
    e.steps n = { e with
      envelope := releaseTarget + e.releaseCoefficient ^ n * (e.envelope - releaseTarget) } := by
  induction n with
  | zero => simp [steps]
  | succ n ih =>
    rw [steps_succ, ih (fun k h1 h2 => hlt k h1 (by omega))]
    have h := hlt (n + 1) (by omega) (le_refl _)
    have hv : processExponential (releaseTarget + e.releaseCoefficient ^ n * (e.envelope - releaseTarget))
        releaseTarget e.releaseCoefficient =
        releaseTarget + e.releaseCoefficient ^ (n + 1) * (e.envelope - releaseTarget) := by
      unfold processExponential; ring
    unfold AdsrEnvelope.process
    simp only [hp, hv]
    rw [max_eq_left h.le, if_neg (not_le.mpr h)]

theorem release_done {e : AdsrEnvelope} (hp : e.phase = .release) (n : Nat)
    (hlt : ∀ k, 1 ≤ k → k ≤ n →
      0 < releaseTarget + e.releaseCoefficient ^ k * (e.envelope - releaseTarget))
    (hge : releaseTarget + e.releaseCoefficient ^ (n + 1) * (e.envelope - releaseTarget) ≤ 0) :
    e.steps (n + 1) = { e with envelope := 0, phase := .idle } := by
  rw [steps_succ, release_steps hp n hlt]
  have hv : processExponential (releaseTarget + e.releaseCoefficient ^ n * (e.envelope - releaseTarget))
      releaseTarget e.releaseCoefficient =
      releaseTarget + e.releaseCoefficient ^ (n + 1) * (e.envelope - releaseTarget) := by
    unfold processExponential; ring
  unfold AdsrEnvelope.process
  simp only [hp, hv]
  rw [max_eq_right hge, if_pos (le_refl _)]

theorem idle_steps {e : AdsrEnvelope} (hp : e.phase = .idle) (h0 : e.envelope = 0) (n : Nat) : e.steps n = e := by
  induction n with
  | zero => rfl
  | succ n ih =>
    rw [steps_succ, ih]
    unfold AdsrEnvelope.process
    cases e
    simp only at hp h0
    subst hp h0
    rfl

theorem sustain_steps {e : AdsrEnvelope} (hp : e.phase = .sustain) (h0 : e.envelope = e.sustainLevel.linear)
    (n : Nat) : e.steps n = e := by
  induction n with
  | zero => rfl
  | succ n ih =>
    rw [steps_succ, ih]
    unfold AdsrEnvelope.process
    cases e
    simp only at hp h0
    subst hp h0
    rfl

/-- Settings that belong to the times `a`, `d`, `r` and the level `s`. -/
structure Settings (sr : Nat) (a d : ℝ) (s : Level) (r : ℝ) (e : AdsrEnvelope) : Prop where
  attack : e.attackCoefficient = attackCoefficientFor a sr
  decay : e.decayCoefficient = decayCoefficientFor d s sr
  sustain : e.sustainLevel = s
  release : e.releaseCoefficient = releaseCoefficientFor r s sr

/-- A note from silence: attack, decay, sustain. -/
theorem note_steps {sr : Nat} (hsr : 0 < sr) {a d r : ℝ} {s : Level} (hs : 0 ≤ s.linear ∧ s.linear ≤ 1)
    {e : AdsrEnvelope} (h : e.Settings sr a d s r) (hp : e.phase = .attack) (h0 : e.envelope = 0) :
    (∀ n, n < stageFrames a sr → (e.steps n).envelope < 1 ∧ (e.steps n).phase = .attack) ∧
      e.steps (stageFrames a sr) = { e with envelope := 1, phase := .decay } ∧
      (∀ n, n < stageFrames d sr → s.linear < 1 →
        s.linear < (e.steps (stageFrames a sr + n)).envelope) ∧
      (∀ n, stageFrames a sr + stageFrames d sr ≤ n →
        e.steps n = { e with envelope := s.linear, phase := .sustain }) := by
  have hA : 1 ≤ stageFrames a sr := le_max_left _ _
  have hD : 1 ≤ stageFrames d sr := le_max_left _ _
  have key : ∀ n, e.attackCoefficient ^ n ≤ 1 / 11 ↔ stageFrames a sr ≤ n := by
    intro n
    rw [h.attack]
    unfold attackCoefficientFor
    rw [attack_log]
    exact coefficient_pow (by norm_num) (by norm_num) a hsr n
  have hv : ∀ n, attackTarget + e.attackCoefficient ^ n * (e.envelope - attackTarget) < 1 ↔
      n < stageFrames a sr := by
    intro n
    rw [← not_le, ← not_le, not_iff_not, ← key n, h0]
    unfold attackTarget
    constructor <;> intro h <;> linarith
  have hlt : ∀ k n, 1 ≤ k → k ≤ n → n < stageFrames a sr →
      attackTarget + e.attackCoefficient ^ k * (e.envelope - attackTarget) < 1 :=
    fun k n _ h2 h3 => (hv k).mpr (by omega)
  have h1 : ∀ n, n < stageFrames a sr → (e.steps n).envelope < 1 ∧ (e.steps n).phase = .attack := by
    intro n hn
    rw [attack_steps hp n (fun k k1 k2 => hlt k n k1 k2 hn)]
    exact ⟨(hv n).mpr hn, hp⟩
  have h2 : e.steps (stageFrames a sr) = { e with envelope := 1, phase := .decay } := by
    obtain ⟨m, hm⟩ : ∃ m, stageFrames a sr = m + 1 := ⟨stageFrames a sr - 1, by omega⟩
    rw [hm]
    exact attack_done hp m (fun k k1 k2 => hlt k m k1 k2 (by omega)) (not_lt.mp (fun hc => by
      have := (hv (m + 1)).mp hc
      omega))
  obtain ⟨e1, he1⟩ : ∃ e1 : AdsrEnvelope, e1 = { e with envelope := 1, phase := .decay } := ⟨_, rfl⟩
  have hp1 : e1.phase = .decay := by rw [he1]
  have hv1 : e1.envelope = 1 := by rw [he1]
  have hs1 : e1.sustainLevel = s := by rw [he1]; exact h.sustain
  have hd1 : e1.decayCoefficient = decayCoefficientFor d s sr := by rw [he1]; exact h.decay
  rw [← he1] at h2
  have hend : { e1 with envelope := e1.sustainLevel.linear, phase := AdsrPhase.sustain } =
      { e with envelope := s.linear, phase := AdsrPhase.sustain } := by
    rw [hs1]
    subst he1
    simp only [h.sustain]
  rcases lt_or_eq_of_le hs.2 with hlt1 | heq1
  · have key2 : ∀ n, e1.decayCoefficient ^ n ≤ (10 * s.linear + 1) / 11 ↔ stageFrames d sr ≤ n := by
      intro n
      rw [hd1]
      unfold decayCoefficientFor
      rw [decay_log]
      exact coefficient_pow (by linarith [hs.1]) (by linarith) d hsr n
    have hw : ∀ n, e1.sustainLevel.linear < decayTarget + e1.decayCoefficient ^ n * (e1.envelope - decayTarget) ↔
        n < stageFrames d sr := by
      intro n
      rw [← not_le, ← not_le, not_iff_not, ← key2 n, hv1, hs1]
      unfold decayTarget
      constructor <;> intro h <;> linarith
    refine ⟨h1, h2.trans he1, ?_, ?_⟩
    · intro n hn _
      rw [steps_add, h2, decay_steps hp1 n (fun k k1 k2 => (hw k).mpr (by omega))]
      have := (hw n).mpr hn
      rw [hs1] at this
      exact this
    · intro n hn
      obtain ⟨m, hm⟩ : ∃ m, stageFrames d sr = m + 1 := ⟨stageFrames d sr - 1, by omega⟩
      obtain ⟨k, rfl⟩ : ∃ k, n = stageFrames a sr + ((m + 1) + k) := ⟨n - stageFrames a sr - (m + 1), by omega⟩
      rw [steps_add, h2, steps_add, decay_done hp1 m (fun k k1 k2 => (hw k).mpr (by omega))
        (not_lt.mp (fun hc => by have := (hw (m + 1)).mp hc; omega)), sustain_steps rfl rfl, hend]
  · refine ⟨h1, h2.trans he1, fun n _ hlt => absurd heq1 hlt.ne, ?_⟩
    intro n hn
    obtain ⟨k, rfl⟩ : ∃ k, n = stageFrames a sr + (1 + k) := ⟨n - stageFrames a sr - 1, by omega⟩
    have hc : 0 ≤ e1.decayCoefficient ∧ e1.decayCoefficient ≤ 1 := by
      rw [hd1]; exact decay_range d hs hsr
    rw [steps_add, h2, steps_add, decay_done hp1 0 (fun k k1 k2 => by omega) (by
      rw [hv1, hs1, heq1]
      unfold decayTarget
      simp only [zero_add, pow_one]
      linarith [hc.2]), sustain_steps rfl rfl, hend]

/-- The release from a level not above the sustain level. -/
theorem release_within {sr : Nat} (hsr : 0 < sr) {a d r : ℝ} {s : Level} (hs : 0 < s.linear)
    {e : AdsrEnvelope} (h : e.Settings sr a d s r) (hp : e.phase = .release) (h0 : 0 ≤ e.envelope)
    (h1 : e.envelope ≤ s.linear) : ∀ n, stageFrames r sr ≤ n → (e.steps n).envelope = 0 := by
  intro n hn
  have hpos : 0 < 10 * s.linear + 1 := by linarith
  have key : ∀ n, e.releaseCoefficient ^ n ≤ 1 / (10 * s.linear + 1) ↔ stageFrames r sr ≤ n := by
    intro n
    rw [h.release]
    unfold releaseCoefficientFor
    rw [release_log s hs.le]
    exact coefficient_pow (by positivity) (by rw [div_lt_one hpos]; linarith) r hsr n
  have hR : 1 ≤ stageFrames r sr := le_max_left _ _
  have hex : ∃ m, 1 ≤ m ∧ releaseTarget + e.releaseCoefficient ^ m * (e.envelope - releaseTarget) ≤ 0 := by
    refine ⟨stageFrames r sr, hR, ?_⟩
    have := (key (stageFrames r sr)).mpr (le_refl _)
    rw [le_div_iff₀ hpos] at this
    have hc : 0 ≤ e.releaseCoefficient ^ stageFrames r sr := by
      apply pow_nonneg
      rw [h.release]
      unfold releaseCoefficientFor coefficient
      split
      · exact le_refl _
      · exact (Real.exp_pos _).le
    unfold releaseTarget
    nlinarith
  classical
  obtain ⟨m, hm1, hm2⟩ : ∃ m, (1 ≤ m ∧ releaseTarget + e.releaseCoefficient ^ m * (e.envelope - releaseTarget) ≤ 0) ∧
      ∀ k, k < m → ¬ (1 ≤ k ∧ releaseTarget + e.releaseCoefficient ^ k * (e.envelope - releaseTarget) ≤ 0) :=
    ⟨Nat.find hex, Nat.find_spec hex, fun k hk => Nat.find_min hex hk⟩
  have hmR : m ≤ stageFrames r sr := by
    by_contra hc
    have := hm2 (stageFrames r sr) (by omega)
    apply this
    refine ⟨hR, ?_⟩
    have := (key (stageFrames r sr)).mpr (le_refl _)
    rw [le_div_iff₀ hpos] at this
    have hc : 0 ≤ e.releaseCoefficient ^ stageFrames r sr := by
      apply pow_nonneg
      rw [h.release]
      unfold releaseCoefficientFor coefficient
      split
      · exact le_refl _
      · exact (Real.exp_pos _).le
    unfold releaseTarget
    nlinarith
  obtain ⟨j, rfl⟩ : ∃ j, m = j + 1 := ⟨m - 1, by omega⟩
  obtain ⟨k, rfl⟩ : ∃ k, n = (j + 1) + k := ⟨n - (j + 1), by omega⟩
  rw [steps_add, release_done hp j (fun k k1 k2 => by
    have := hm2 k (by omega)
    by_contra hc
    exact this ⟨k1, not_lt.mp hc⟩) hm1.2, idle_steps rfl rfl]

/-- The release from exactly the sustain level does not end early. -/
theorem release_not_before {sr : Nat} (hsr : 0 < sr) {a d r : ℝ} {s : Level} (hs : 0 < s.linear)
    {e : AdsrEnvelope} (h : e.Settings sr a d s r) (hp : e.phase = .release)
    (h1 : s.linear ≤ e.envelope) : ∀ n, n < stageFrames r sr → 0 < (e.steps n).envelope := by
  intro n hn
  have hpos : 0 < 10 * s.linear + 1 := by linarith
  have key : ∀ n, e.releaseCoefficient ^ n ≤ 1 / (10 * s.linear + 1) ↔ stageFrames r sr ≤ n := by
    intro n
    rw [h.release]
    unfold releaseCoefficientFor
    rw [release_log s hs.le]
    exact coefficient_pow (by positivity) (by rw [div_lt_one hpos]; linarith) r hsr n
  have hgt : ∀ k, k ≤ n → 0 < releaseTarget + e.releaseCoefficient ^ k * (e.envelope - releaseTarget) := by
    intro k hk
    have := (not_congr (key k)).mpr (by omega)
    rw [not_le, div_lt_iff₀ hpos] at this
    have hc : 0 < e.releaseCoefficient ^ k := by nlinarith
    unfold releaseTarget
    nlinarith
  rw [release_steps hp n (fun k _ k2 => hgt k k2)]
  exact hgt n (le_refl _)

end AdsrEnvelope
end Rawdio
