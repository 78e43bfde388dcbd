import Verif.Lemmas.AdsrFloat3

/-! # The ADSR envelope in the arithmetic of `f64` (C106) -/

namespace Rawdio
namespace Adsr64

/-- After every history of notes, settings and frames the value is between 0 and 1. -/
theorem C106_range {ln exp : ℚ → ℚ} (h : Contracting ln exp) (sr : Nat) (s : Adsr64Settings) (hs : 0 ≤ s.sustain ∧ s.sustain ≤ 1)
    (as : List Adsr64Action) (ha : ∀ l, .setSustain l ∈ as → 0 ≤ l ∧ l ≤ 1) :
    0 ≤ (after ln exp sr s as).envelope ∧ (after ln exp sr s as).envelope ≤ 1 :=
  (fold_sound h as (new_sound h sr _ _ _ hs.1 hs.2) ha).value

/-- Accurate functions meet the hypothesis, and a note is started again in its release. -/
example : ∃ ln exp : ℚ → ℚ, Accurate ln exp ∧ Contracting ln exp ∧
    0 ≤ (after ln exp 48000 ⟨10 ^ 6, 10 ^ 7, 1 / 2, 10 ^ 8⟩
      [.noteOn, .frame, .frame, .noteOff, .frame, .setSustain (3 / 4), .noteOn, .frame]).envelope := by
  obtain ⟨ln, exp, ha, hc⟩ := contracting_exists
  refine ⟨ln, exp, ha, hc, (C106_range hc 48000 ⟨10 ^ 6, 10 ^ 7, 1 / 2, 10 ^ 8⟩ (by norm_num) _ ?_).1⟩
  intro l hl
  simp at hl
  rw [hl]
  norm_num

/-- A note, played when the envelope is idle after any history, takes for each stage the time that was set, with an error
of less than a frame early and less than two frames late.  In between the stages the value is exactly 1, the sustain
level, and 0. -/
theorem C106_note {ln exp : ℚ → ℚ} (hacc : Accurate ln exp) {sr : Nat} (hsr : 0 < sr) (s₀ : Adsr64Settings)
    (as : List Adsr64Action) (hidle : (after ln exp sr s₀ as).phase = .idle) {s : Adsr64Settings}
    (hs : s = as.foldl Adsr64Settings.act s₀) (hl0 : 1 / 100 ≤ s.sustain) (hl1 : s.sustain ≤ 99 / 100)
    (ha1 : 1 ≤ timeSamples sr s.attack) (ha2 : timeSamples sr s.attack ≤ 2 ^ 19)
    (hd1 : 1 ≤ timeSamples sr s.decay) (hd2 : timeSamples sr s.decay ≤ 2 ^ 19)
    (hr1 : 1 ≤ timeSamples sr s.release) (hr2 : timeSamples sr s.release ≤ 2 ^ 19) :
    let e := (after ln exp sr s₀ as).opened
    ∃ A D R : Nat,
      (timeSamples sr s.attack - 1 < A ∧ (A : ℚ) < timeSamples sr s.attack + 2) ∧
      (timeSamples sr s.decay - 1 < D ∧ (D : ℚ) < timeSamples sr s.decay + 2) ∧
      (timeSamples sr s.release - 1 < R ∧ (R : ℚ) < timeSamples sr s.release + 2) ∧
      (frames e 0).envelope = 0 ∧
      (∀ k < A, (frames e k).envelope < 1) ∧
      (frames e A).envelope = 1 ∧
      (∀ k, A ≤ k → k < A + D → s.sustain < (frames e k).envelope) ∧
      (∀ k, A + D ≤ k → (frames e k).envelope = s.sustain) ∧
      ∀ m, A + D ≤ m →
        (∀ k < R, 0 < (frames (frames e m).closed k).envelope) ∧
        ∀ k, R ≤ k → (frames (frames e m).closed k).envelope = 0 ∧ (frames (frames e m).closed k).phase = .idle := by
  intro e
  have hset := after_settled ln exp sr s₀ as
  rw [← hs] at hset
  obtain ⟨A, A1, A2, A3, A4⟩ := attack_length hacc hsr ha1 ha2
  obtain ⟨D, D1, D2, D3, D4⟩ := decay_length hacc hsr (by linarith) hl1 hd1 hd2
  obtain ⟨R, R1, R2, R3, R4⟩ := release_length hacc hsr hl0 (by linarith) hr1 hr2
  have pos : ∀ {n : ℚ} {K : Nat}, 1 ≤ n → n - 1 < K → ∃ j, K = j + 1 := by
    intro n K h1 h2
    have : (0 : ℚ) < K := by linarith
    have : 0 < K := by exact_mod_cast this
    exact ⟨K - 1, by omega⟩
  obtain ⟨A', rfl⟩ := pos ha1 A1
  obtain ⟨D', rfl⟩ := pos hd1 D1
  obtain ⟨R', rfl⟩ := pos hr1 R1
  have he0 : e.envelope = 0 := hset.idle hidle
  have ep : e.phase = .attack := rfl
  have ea : e.attackCoefficient = _ := hset.attack
  rw [← ea, ← he0] at A3 A4
  -- the attack
  have fA := attack_end ep (fun j hj => A3 j (by omega)) A4
  obtain ⟨e1, he1⟩ : ∃ e1 : Adsr64, e1 = { e with envelope := 1, phase := .decay } := ⟨_, rfl⟩
  rw [← he1] at fA
  have e1p : e1.phase = .decay := by rw [he1]
  have e1v : e1.envelope = 1 := by rw [he1]
  have e1c : e1.decayCoefficient = decayCoefficientFor ln exp s.decay s.sustain sr := by rw [he1]; exact hset.decay
  have e1s : e1.sustainLevel = s.sustain := by rw [he1]; exact hset.sustain
  have e1r : e1.releaseCoefficient = releaseCoefficientFor ln exp s.release s.sustain sr := by rw [he1]; exact hset.release
  have D3' : ∀ k < D' + 1, e1.sustainLevel < curve decayTarget e1.decayCoefficient e1.envelope k := by
    rw [e1s, e1c, e1v]
    exact D3
  have D4' : curve decayTarget e1.decayCoefficient e1.envelope (D' + 1) ≤ e1.sustainLevel := by
    rw [e1s, e1c, e1v]
    exact D4
  -- the decay
  have fD := decay_end e1p (fun j hj => D3' j (by omega)) D4'
  obtain ⟨e2, he2⟩ : ∃ e2 : Adsr64, e2 = { e1 with envelope := e1.sustainLevel, phase := .sustain } := ⟨_, rfl⟩
  rw [← he2] at fD
  have e2f : e2.process = e2 := by rw [he2]; rfl
  have hold : ∀ k, A' + 1 + (D' + 1) ≤ k → frames e k = e2 := by
    intro k hk
    obtain ⟨j, rfl⟩ := Nat.exists_eq_add_of_le hk
    rw [frames_add, frames_add, fA, fD]
    exact frames_fixed e2f j
  have e2v : e2.envelope = s.sustain := by rw [he2]; exact e1s
  refine ⟨A' + 1, D' + 1, R' + 1, ⟨A1, A2⟩, ⟨D1, D2⟩, ⟨R1, R2⟩, he0, ?_, ?_, ?_, ?_, ?_⟩
  · intro k hk
    rw [attack_frames ep k fun j hj => A3 j (by omega)]
    exact A3 k hk
  · rw [fA]
    exact e1v
  · intro k hk1 hk2
    obtain ⟨j, rfl⟩ := Nat.exists_eq_add_of_le hk1
    rw [frames_add, fA, decay_frames e1p j fun i hi => D3' i (by omega)]
    have := D3' j (by omega)
    rwa [e1s] at this
  · intro k hk
    rw [hold k hk]
    exact e2v
  · intro m hm
    rw [hold m hm]
    -- the release
    obtain ⟨f, hf⟩ : ∃ f, f = e2.closed := ⟨_, rfl⟩
    rw [← hf]
    have fp : f.phase = .release := by rw [hf, he2]; rfl
    have fv : f.envelope = s.sustain := by rw [hf]; exact e2v
    have fc : f.releaseCoefficient = releaseCoefficientFor ln exp s.release s.sustain sr := by
      rw [hf, he2]
      exact e1r
    rw [← fc, ← fv] at R3 R4
    have fR := release_end fp (fun j hj => R3 j (by omega)) R4
    refine ⟨fun k hk => ?_, fun k hk => ?_⟩
    · rw [release_frames fp k fun j hj => R3 j (by omega)]
      exact R3 k hk
    · obtain ⟨j, rfl⟩ := Nat.exists_eq_add_of_le hk
      rw [frames_add, fR, frames_fixed rfl j]
      exact ⟨rfl, rfl⟩

/-- A piano-like note at 48 kHz: attack 5 ms, decay 200 ms to a half, release 1 s, the release time being set later. -/
example : ∃ ln exp : ℚ → ℚ, ∃ A : Nat, 239 < A ∧ A < 242 ∧
    (frames (after ln exp 48000 ⟨5 * 10 ^ 6, 2 * 10 ^ 8, 1 / 2, 0⟩ [.frame, .setRelease (10 ^ 9), .frame]).opened A).envelope = 1 := by
  obtain ⟨ln, exp, hacc⟩ := RealtimeParameter.accurate_exists
  obtain ⟨A, D, R, hA, -, -, -, -, h, -⟩ := C106_note hacc (sr := 48000) (by norm_num) ⟨5 * 10 ^ 6, 2 * 10 ^ 8, 1 / 2, 0⟩
    [.frame, .setRelease (10 ^ 9), .frame] rfl rfl (by norm_num [Adsr64Settings.act]) (by norm_num [Adsr64Settings.act])
    (by norm_num [Adsr64Settings.act, timeSamples]) (by norm_num [Adsr64Settings.act, timeSamples])
    (by norm_num [Adsr64Settings.act, timeSamples]) (by norm_num [Adsr64Settings.act, timeSamples])
    (by norm_num [Adsr64Settings.act, timeSamples]) (by norm_num [Adsr64Settings.act, timeSamples])
  norm_num [Adsr64Settings.act, timeSamples] at hA
  refine ⟨ln, exp, A, ?_, ?_, h⟩
  · exact_mod_cast hA.1
  · exact_mod_cast hA.2

/-- The stages whose time is 0 take one frame, from wherever they start, whatever the logarithm and the exponential
function are. -/
theorem C106_instant (ln exp : ℚ → ℚ) (sr : Nat) (s₀ : Adsr64Settings) (as : List Adsr64Action) {s : Adsr64Settings}
    (hs : s = as.foldl Adsr64Settings.act s₀) (hl : 0 ≤ s.sustain) :
    (s.attack = 0 → (after ln exp sr s₀ as).opened.process.envelope = 1 ∧
      (s.decay = 0 → (after ln exp sr s₀ as).opened.process.process.envelope = s.sustain ∧
        (after ln exp sr s₀ as).opened.process.process.phase = .sustain)) ∧
    (s.release = 0 → (after ln exp sr s₀ as).closed.process.envelope = 0 ∧
      (after ln exp sr s₀ as).closed.process.phase = .idle) := by
  have hset := after_settled ln exp sr s₀ as
  rw [← hs] at hset
  generalize after ln exp sr s₀ as = e at *
  have ht : (0 : ℚ) < tenth := by norm_num [tenth]
  have up : ∀ v, processExponential v attackTarget 0 = top := by
    intro v
    unfold processExponential
    rw [zero_mul, Float32.round64_zero, add_zero, attackTarget_eq]
    exact Float64.round_of_rep rep_top
  have down : ∀ v, processExponential v (-tenth) 0 = -tenth := by
    intro v
    unfold processExponential
    rw [zero_mul, Float32.round64_zero, add_zero]
    exact Float64.round_of_rep (Float64.rep_neg rep_tenth)
  constructor
  · intro ha
    have hc : e.attackCoefficient = 0 := by rw [hset.attack, ha]; rfl
    have hp : e.opened.process = { e with envelope := 1, phase := .decay } := by
      simp only [process, opened, hc, up]
      have : min top 1 = 1 := by norm_num [top]
      rw [this]
      simp
    rw [hp]
    refine ⟨rfl, fun hd => ?_⟩
    have hc : e.decayCoefficient = 0 := by rw [hset.decay, hd]; rfl
    simp only [process, hc, decayTarget_eq, down, hset.sustain]
    have : max (-tenth) s.sustain = s.sustain := max_eq_right (by linarith)
    rw [this]
    simp
  · intro hr
    have hc : e.releaseCoefficient = 0 := by rw [hset.release, hr]; rfl
    cases hp : e.phase with
    | idle => simp [closed, process, hp]
    | _ =>
      simp only [closed, process, hp, hc, releaseTarget_eq, down]
      have : max (-tenth) 0 = (0 : ℚ) := max_eq_right (by linarith)
      rw [this]
      simp

/-- In the middle of a note. -/
example (ln exp : ℚ → ℚ) :
    (after ln exp 44100 ⟨10 ^ 6, 10 ^ 7, 1 / 2, 10 ^ 8⟩ [.noteOn, .frame, .setRelease 0]).closed.process.envelope = 0 :=
  ((C106_instant ln exp 44100 ⟨10 ^ 6, 10 ^ 7, 1 / 2, 10 ^ 8⟩ [.noteOn, .frame, .setRelease 0] rfl (by norm_num [Adsr64Settings.act])).2
    rfl).1

/-- Whenever the envelope is idle the next value is 0, and whenever it sustains the next value is the sustain level that was
set last, also during the note. -/
theorem C106_rest (ln exp : ℚ → ℚ) (sr : Nat) (s₀ : Adsr64Settings) (as : List Adsr64Action) {s : Adsr64Settings}
    (hs : s = as.foldl Adsr64Settings.act s₀) :
    ((after ln exp sr s₀ as).phase = .idle → (after ln exp sr s₀ as).process.envelope = 0 ∧
      (after ln exp sr s₀ as).closed.process.envelope = 0) ∧
    ((after ln exp sr s₀ as).phase = .sustain → (after ln exp sr s₀ as).process.envelope = s.sustain) := by
  have hset := after_settled ln exp sr s₀ as
  rw [← hs] at hset
  generalize after ln exp sr s₀ as = e at *
  constructor
  · intro hp
    simp [process, closed, hp]
  · intro hp
    simp only [process, hp]
    exact hset.sustain

/-- The level is lowered while a note sounds. -/
example (ln exp : ℚ → ℚ) :
    (after ln exp 44100 ⟨0, 0, 1 / 2, 10 ^ 8⟩ [.noteOn, .frame, .frame, .setSustain (1 / 4)]).process.envelope = 1 / 4 := by
  have h := C106_instant ln exp 44100 ⟨0, 0, 1 / 2, 10 ^ 8⟩ [] rfl (by norm_num)
  exact (C106_rest ln exp 44100 ⟨0, 0, 1 / 2, 10 ^ 8⟩ [.noteOn, .frame, .frame, .setSustain (1 / 4)] rfl).2 ((h.1 rfl).2 rfl).2

end Adsr64
end Rawdio
