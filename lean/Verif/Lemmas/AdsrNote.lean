import Verif.Lemmas.AdsrRun

/-! # One note -/

namespace Rawdio

open EventProcessor

namespace AdsrEnvelope

theorem Settings.process {sr : Nat} {a d r : ℝ} {s : Level} {e : AdsrEnvelope} (h : e.Settings sr a d s r) :
    e.process.Settings sr a d s r := by
  unfold AdsrEnvelope.process
  split <;> exact ⟨h.attack, h.decay, h.sustain, h.release⟩

theorem Settings.steps {sr : Nat} {a d r : ℝ} {s : Level} {e : AdsrEnvelope} (h : e.Settings sr a d s r)
    (n : Nat) : (e.steps n).Settings sr a d s r := by
  induction n with
  | zero => exact h
  | succ n ih => rw [steps_succ]; exact ih.process

theorem Ok.steps {e : AdsrEnvelope} (h : e.Ok) (n : Nat) : (e.steps n).Ok := by
  induction n with
  | zero => exact h
  | succ n ih => rw [steps_succ]; exact ih.process

/-- A note does not end by itself. -/
theorem steps_sounding {e : AdsrEnvelope} (h : e.phase ≠ .idle ∧ e.phase ≠ .release) (n : Nat) :
    (e.steps n).phase ≠ .idle ∧ (e.steps n).phase ≠ .release := by
  induction n with
  | zero => exact h
  | succ n ih =>
    rw [steps_succ]
    obtain ⟨e', he'⟩ : ∃ e', e' = e.steps n := ⟨_, rfl⟩
    rw [← he'] at ih ⊢
    unfold AdsrEnvelope.process
    split
    · rename_i hp; exact absurd hp ih.1
    · simp only; split <;> simp
    · simp only; split <;> simp
    · rename_i hp; simp [hp]
    · rename_i hp; exact absurd hp ih.2

end AdsrEnvelope

namespace AdsrNote

/-- The envelope when the note starts. -/
noncomputable def started (h : AdsrNote) : AdsrEnvelope :=
  ((h.onEvents.map AdsrEvent.eventType).foldl AdsrEnvelope.apply
    (AdsrProcessor.new h.sampleRate h.maximum).envelope)

/-- The envelope when the note ends. -/
noncomputable def ended (h : AdsrNote) : AdsrEnvelope := (h.started.steps (h.offFrame - h.onFrame)).closed

theorem started_settings (h : AdsrNote) :
    h.started.Settings h.sampleRate h.attack h.decay h.sustain h.release := ⟨rfl, rfl, rfl, rfl⟩

theorem started_phase (h : AdsrNote) : h.started.phase = .attack := rfl

theorem started_envelope (h : AdsrNote) : h.started.envelope = 0 := rfl

theorem started_ok {h : AdsrNote} (v : h.Valid) : h.started.Ok := by
  have h0 := AdsrProcessor.ok_new v.rate h.maximum
  unfold started onEvents
  simp only [List.map_cons, List.map_nil, List.foldl_cons, List.foldl_nil]
  exact ((((h0.apply (x := .setAttack h.attack) trivial).apply (x := .setDecay h.decay) trivial).apply
    (x := .setSustain h.sustain) v.sustain).apply (x := .setRelease h.release) trivial).apply
    (x := .noteOn) trivial

theorem on_lt_off {h : AdsrNote} (v : h.Valid) : h.onFrame < h.offFrame := by
  have hb := v.blocks h.on (by simp [blocks])
  have := frameOf_lt (start := h.on.start) v.rate hb.nonempty v.onBefore
  unfold onFrame offFrame
  omega

/-- The gains of a note. -/
noncomputable def gains (h : AdsrNote) (n : Nat) : ℝ :=
  if n < h.onFrame then 0
  else if n < h.offFrame then (h.started.steps (n - h.onFrame + 1)).envelope
  else (h.ended.steps (n - h.offFrame + 1)).envelope

theorem played {h : AdsrNote} (v : h.Valid) : h.PlayedWith h.gains := by
  have hlt := on_lt_off v
  have hon := v.blocks h.on (by simp [blocks])
  have hoff := v.blocks h.off (by simp [blocks])
  have hfon := frameOf_lt (start := h.on.start) v.rate hon.nonempty v.onBefore
  have hfoff := frameOf_lt (start := h.off.start) v.rate hoff.nonempty v.offBefore
  obtain ⟨p, outs, hrun, hfol⟩ := AdsrProcessor.run_follows v.rate h.blocks
    (AdsrProcessor.new h.sampleRate h.maximum) (AdsrProcessor.ready_new _ _) (by
      intro b hb
      refine ⟨v.blocks b hb, ?_⟩
      unfold blocks at hb
      rcases List.mem_append.mp hb with hb | hb
      · rw [v.before b hb]; simp
      rcases List.mem_cons.mp hb with hb | hb
      · rw [hb, v.on]; simp [onEvents, adsrEventCapacity]
      rcases List.mem_append.mp hb with hb | hb
      · rw [v.held b hb]; simp
      rcases List.mem_cons.mp hb with hb | hb
      · rw [hb, v.off]; simp [adsrEventCapacity]
      · rw [v.after b hb]; simp)
  refine ⟨p, outs, hrun, ?_⟩
  obtain ⟨e0, he0⟩ : ∃ e0, e0 = (AdsrProcessor.new h.sampleRate h.maximum).envelope := ⟨_, rfl⟩
  have hidle : ∀ n, e0.steps n = e0 := fun n => AdsrEnvelope.idle_steps (by rw [he0]; rfl) (by rw [he0]; rfl) n
  change AdsrBlock.Follows h.sampleRate [] (AdsrProcessor.new h.sampleRate h.maximum).envelope h.blocks outs at hfol
  rw [← he0] at hfol
  obtain ⟨o1, o2, ho2, hp1, hfol⟩ := AdsrBlock.Follows.plain h.before _ e0 outs v.before hfol
  rw [hidle] at hfol
  have h01 : h.sequence 0 < h.sequence 1 := v.sequence (by decide)
  have h12 : h.sequence 1 < h.sequence 2 := v.sequence (by decide)
  have h23 : h.sequence 2 < h.sequence 3 := v.sequence (by decide)
  have h34 : h.sequence 3 < h.sequence 4 := v.sequence (by decide)
  have ht := v.onTime
  have hone := AdsrBlock.Follows.one v.rate hon.nonempty
    (pre := [⟨h.sequence 0, 0, .setAttack h.attack⟩, ⟨h.sequence 1, 0, .setDecay h.decay⟩,
      ⟨h.sequence 2, 0, .setSustain h.sustain⟩, ⟨h.sequence 3, 0, .setRelease h.release⟩])
    (x := ⟨h.sequence 4, h.onTime, .noteOn⟩) v.on
    (by
      have := v.start
      simp only [List.mem_cons, List.not_mem_nil, or_false, forall_eq_or_imp, forall_eq]
      omega)
    v.onBefore
    (by
      rw [v.on]
      unfold InTimeOrder onEvents
      simp only [List.pairwise_cons, List.mem_cons, List.not_mem_nil, or_false, forall_eq_or_imp, forall_eq,
        TimedEvent.time, TimedEvent.sequenceNumber, IsEmpty.forall_iff, implies_true, List.Pairwise.nil, and_true]
      refine ⟨⟨?_, ?_, ?_, ?_⟩, ⟨?_, ?_, ?_⟩, ⟨?_, ?_⟩, ?_⟩ <;>
        first
        | exact Or.inr ⟨trivial, le_of_lt (v.sequence (by decide))⟩
        | exact (lt_or_eq_of_le ht).imp id (fun h => ⟨h, le_of_lt (v.sequence (by decide))⟩))
    (by
      rw [v.on]
      unfold onEvents
      simp only [List.pairwise_cons, List.mem_cons, List.not_mem_nil, or_false, forall_eq_or_imp, forall_eq,
        IsEmpty.forall_iff, implies_true, List.Pairwise.nil, and_true]
      refine ⟨⟨?_, ?_, ?_, ?_⟩, ⟨?_, ?_, ?_⟩, ⟨?_, ?_⟩, ?_⟩ <;> omega)
    hfol
  simp only at hone
  obtain ⟨_, o, os, hos, hsc, hfol⟩ := hone
  obtain ⟨e1, he1⟩ : ∃ e1, e1 = List.foldl AdsrEnvelope.apply e0 (List.map AdsrEvent.eventType
    [⟨h.sequence 0, 0, .setAttack h.attack⟩, ⟨h.sequence 1, 0, .setDecay h.decay⟩,
      ⟨h.sequence 2, 0, .setSustain h.sustain⟩, ⟨h.sequence 3, 0, .setRelease h.release⟩]) := ⟨_, rfl⟩
  rw [← he1] at hsc hfol
  have hidle1 : ∀ n, e1.steps n = e1 := fun n =>
    AdsrEnvelope.idle_steps (by rw [he1, he0]; rfl) (by rw [he1, he0]; rfl) n
  have hst : e1.apply .noteOn = h.started := by rw [he1, he0]; rfl
  rw [hidle1, hst] at hfol
  simp only [hidle1, hst] at hsc
  obtain ⟨o3, o4, ho4, hp3, hfol⟩ := AdsrBlock.Follows.plain h.held _ _ os v.held hfol
  have hone := AdsrBlock.Follows.one v.rate hoff.nonempty
    (pre := []) (x := ⟨h.sequence 5, h.offTime, .noteOff⟩) v.off (by simp) v.offBefore
    (by rw [v.off]; exact List.pairwise_singleton _ _)
    (by rw [v.off]; exact List.pairwise_singleton _ _) hfol
  simp only [List.map_nil, List.foldl_nil] at hone
  obtain ⟨_, o', os', hos', hsc', hfol⟩ := hone
  have hend : ((((h.started.steps (h.on.input.frames - frameOf h.on.start h.onTime h.sampleRate)).steps
      (AdsrBlock.totalFrames h.held)).steps (frameOf h.off.start h.offTime h.sampleRate)).apply .noteOff) =
      h.ended := by
    unfold ended
    rw [← AdsrEnvelope.steps_add, ← AdsrEnvelope.steps_add]
    have : h.on.input.frames - frameOf h.on.start h.onTime h.sampleRate + (AdsrBlock.totalFrames h.held +
        frameOf h.off.start h.offTime h.sampleRate) = h.offFrame - h.onFrame := by
      unfold onFrame offFrame
      omega
    rw [this]
    rfl
  rw [hend] at hfol
  simp only [hend] at hsc'
  have hnil : h.after = h.after ++ [] := by simp
  rw [hnil] at hfol
  obtain ⟨o5, o6, ho6, hp5, hfol⟩ := AdsrBlock.Follows.plain h.after [] _ os' v.after hfol
  have ho6' : o6 = [] := by
    cases o6 with
    | nil => rfl
    | cons a b => exact hfol.elim
  subst ho6'
  rw [List.append_nil] at ho6
  subst ho6 hos' ho4 hos ho2
  have hf1 : h.onFrame = AdsrBlock.totalFrames h.before + frameOf h.on.start h.onTime h.sampleRate := rfl
  have hf2 : h.offFrame = AdsrBlock.totalFrames h.before + h.on.input.frames + AdsrBlock.totalFrames h.held +
    frameOf h.off.start h.offTime h.sampleRate := rfl
  unfold blocks
  refine AdsrBlock.Plays.append (hp1.congr ?_) ⟨⟨hsc.1, hsc.2.1, ?_⟩,
    AdsrBlock.Plays.append (hp3.congr ?_) ⟨⟨hsc'.1, hsc'.2.1, ?_⟩, hp5.congr ?_⟩⟩
  · intro n hn
    rw [hidle, he0]
    unfold gains
    rw [if_pos (by omega)]
    rfl
  · intro c f hc hf
    rw [hsc.2.2 c f hc hf]
    congr 1
    unfold gains
    simp only
    by_cases h1 : f < frameOf h.on.start h.onTime h.sampleRate
    · rw [if_pos h1, if_pos (by omega), he1, he0]
      rfl
    · rw [if_neg h1, if_neg (by omega), if_pos (by omega)]
      congr 3
      omega
  · intro n hn
    unfold gains
    simp only
    rw [if_neg (by omega), if_pos (by omega), ← AdsrEnvelope.steps_add]
    congr 2
    omega
  · intro c f hc hf
    rw [hsc'.2.2 c f hc hf]
    congr 1
    unfold gains
    simp only
    by_cases h1 : f < frameOf h.off.start h.offTime h.sampleRate
    · rw [if_pos h1, if_neg (by omega), if_pos (by omega), ← AdsrEnvelope.steps_add, ← AdsrEnvelope.steps_add]
      congr 2
      omega
    · rw [if_neg h1, if_neg (by omega), if_neg (by omega)]
      congr 3
      omega
  · intro n hn
    unfold gains
    simp only
    rw [if_neg (by omega), if_neg (by omega), ← AdsrEnvelope.steps_add]
    congr 2
    omega

theorem ended_settings {h : AdsrNote} :
    h.ended.Settings h.sampleRate h.attack h.decay h.sustain h.release := by
  have := h.started_settings.steps (h.offFrame - h.onFrame)
  exact ⟨this.attack, this.decay, this.sustain, this.release⟩

theorem ended_phase (h : AdsrNote) : h.ended.phase = .release := by
  have := AdsrEnvelope.steps_sounding (e := h.started) (by rw [started_phase]; simp) (h.offFrame - h.onFrame)
  unfold ended AdsrEnvelope.closed
  simp only
  split
  · rename_i hp; exact absurd hp this.1
  · rfl

theorem ended_envelope {h : AdsrNote} (v : h.Valid) : h.ended.envelope = h.gains (h.offFrame - 1) := by
  have := on_lt_off v
  unfold gains
  rw [if_neg (by omega), if_pos (by omega)]
  unfold ended AdsrEnvelope.closed
  simp only
  congr 2
  omega

theorem ended_ok {h : AdsrNote} (v : h.Valid) : h.ended.Ok :=
  ((started_ok v).steps _).apply (x := .noteOff) trivial

end AdsrNote

namespace AdsrBlock

/-- Inputs that are 1 on a channel show the gains. -/
theorem Plays.unique {bs : List AdsrBlock} : ∀ {os : List (Grid ℝ)} {g g' : Nat → ℝ},
    (∀ b ∈ bs, 0 < b.input.channels ∧ ∀ f, b.input.val 0 f = 1) → Plays bs os g → Plays bs os g' →
    ∀ n, n < totalFrames bs → g n = g' n := by
  induction bs with
  | nil => intro os g g' _ _ _ n hn; simp [totalFrames] at hn
  | cons b bs ih =>
    intro os g g' hb h h' n hn
    cases os with
    | nil => exact h.elim
    | cons o os =>
      have ht : totalFrames (b :: bs) = b.input.frames + totalFrames bs := by simp [totalFrames]
      obtain ⟨hc, h1⟩ := hb b List.mem_cons_self
      by_cases hlt : n < b.input.frames
      · have e1 := h.1.2.2 0 n hc hlt
        have e2 := h'.1.2.2 0 n hc hlt
        rw [h1 n] at e1 e2
        linarith
      · have := ih (fun x hx => hb x (List.mem_cons_of_mem _ hx)) h.2 h'.2 (n - b.input.frames) (by omega)
        rwa [Nat.add_sub_cancel' (by omega)] at this

end AdsrBlock
end Rawdio
