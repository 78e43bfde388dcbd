import Mathlib.Tactic.Linarith
import Mathlib.Tactic.FieldSimp
import Verif.Model.Compressor
import Verif.Lemmas.Follower

/-! # Lemmas on the compressor -/

namespace Rawdio
namespace Compressor

theorem applyGain_eq {isZero isOne : ℝ → Bool} (hz : ∀ x, isZero x = true → x = 0)
    (ho : ∀ x, isOne x = true → x = 1) (gain : Nat → Option ℝ) (g : Grid (Option ℝ)) (c f : Nat)
    (hf : f < g.frames) (s x : ℝ) (hs : g.val c f = some s) (hx : gain f = some x) :
    (applyGain isZero isOne gain g).val c f = some (s * x) := by
  unfold applyGain
  split
  · rename_i h
    have := List.all_eq_true.mp h f (List.mem_range.mpr hf)
    simp only [hx, Option.any_some] at this
    simp only
    rw [hz x this, mul_zero]
  · split
    · rename_i h
      have := List.all_eq_true.mp h f (List.mem_range.mpr hf)
      simp only [hx, Option.any_some] at this
      rw [ho x this, mul_one, hs]
    · simp only [hs, hx]
      rfl

theorem applyGain_none {isZero isOne : ℝ → Bool} (gain : Nat → Option ℝ) (g : Grid (Option ℝ)) (c f : Nat)
    (hf : f < g.frames) (hx : gain f = none) : (applyGain isZero isOne gain g).val c f = none := by
  unfold applyGain
  rw [if_neg, if_neg]
  · simp only [hx]
    cases g.val c f <;> rfl
  · intro h
    have := List.all_eq_true.mp h f (List.mem_range.mpr hf)
    simp [hx] at this
  · intro h
    have := List.all_eq_true.mp h f (List.mem_range.mpr hf)
    simp [hx] at this

theorem applyGain_frames {isZero isOne : ℝ → Bool} (gain : Nat → Option ℝ) (g : Grid (Option ℝ)) :
    (applyGain isZero isOne gain g).frames = g.frames ∧ (applyGain isZero isOne gain g).channels = g.channels := by
  unfold applyGain
  split
  · exact ⟨rfl, rfl⟩
  · split <;> exact ⟨rfl, rfl⟩

/-- The envelope of a channel stays within the loudest sample. -/
theorem followChannel_ok (toDuration : ℝ → Nat) (p : CompressorValues) (samples : Nat → ℝ) (M : ℝ) (n : Nat) :
    ∀ (f : Nat) (e : Follower), e.Ok → e.level ≤ M → (∀ i, f ≤ i → i < f + n → |samples i| ≤ M) →
      (followChannel toDuration p samples f n e).1.Ok ∧ (followChannel toDuration p samples f n e).1.level ≤ M ∧
      (followChannel toDuration p samples f n e).2.length = n ∧
      ∀ v ∈ (followChannel toDuration p samples f n e).2, 0 ≤ v ∧ v ≤ M := by
  induction n with
  | zero => intro f e h1 h2 _; exact ⟨h1, h2, rfl, by intro v hv; cases hv⟩
  | succ n ih =>
    intro f e h1 h2 hs
    obtain ⟨e1, e1'⟩ := h1.setAttack (toDuration (p.attack f))
    obtain ⟨e2, e2'⟩ := e1.setRelease (toDuration (p.release f))
    have hstep := e2.step (samples f)
    have hv : (((e.setAttackTime (toDuration (p.attack f))).setReleaseTime (toDuration (p.release f))).process
        (samples f)).2 ≤ M :=
      le_trans hstep.2 (max_le (by rw [e2', e1']; exact h2) (hs f (le_refl _) (by omega)))
    have hv0 : 0 ≤ (((e.setAttackTime (toDuration (p.attack f))).setReleaseTime (toDuration (p.release f))).process
        (samples f)).2 := le_trans (le_min e2.level (abs_nonneg _)) hstep.1
    obtain ⟨c1, c2, c3, c4⟩ := ih (f + 1) _ (e2.process (samples f)) hv
      (fun i h1 h2 => hs i (by omega) (by omega))
    unfold followChannel
    refine ⟨c1, c2, by simp only [List.length_cons, c3], ?_⟩
    intro v hv'
    simp only [List.mem_cons] at hv'
    rcases hv' with rfl | hv'
    · exact ⟨hv0, hv⟩
    · exact c4 v hv'

theorem meanEnvelope_bounds (values : List (List ℝ)) (n f : Nat) (hn : 0 < n) (M : ℝ) (hM : 0 ≤ M)
    (h : ∀ row ∈ values, ∀ v ∈ row, 0 ≤ v ∧ v ≤ M) :
    0 ≤ meanEnvelope values n f ∧ meanEnvelope values n f ≤ M := by
  have hn' : (0 : ℝ) < n := by exact_mod_cast hn
  have hv : ∀ c, 0 ≤ (values.getD c []).getD f 0 ∧ (values.getD c []).getD f 0 ≤ M := by
    intro c
    rw [List.getD_eq_getElem?_getD, List.getD_eq_getElem?_getD]
    cases h1 : values[c]? with
    | none => simp [hM]
    | some row =>
      simp only [Option.getD_some]
      cases h2 : row[f]? with
      | none => simp [hM]
      | some v => exact h row (List.mem_of_getElem? h1) v (List.mem_of_getElem? h2)
  have key : ∀ k : Nat, 0 ≤ (List.range k).foldl (fun envelope c => envelope + (values.getD c []).getD f 0 / (n : ℝ)) 0 ∧
      (List.range k).foldl (fun envelope c => envelope + (values.getD c []).getD f 0 / (n : ℝ)) 0 ≤ k * (M / n) := by
    intro k
    induction k with
    | zero => simp
    | succ k ih =>
      rw [List.range_succ, List.foldl_append]
      simp only [List.foldl_cons, List.foldl_nil]
      have h1 : 0 ≤ (values.getD k []).getD f 0 / (n : ℝ) := div_nonneg (hv k).1 hn'.le
      have h2 : (values.getD k []).getD f 0 / (n : ℝ) ≤ M / n := div_le_div_of_nonneg_right (hv k).2 hn'.le
      push_cast
      constructor <;> linarith [ih.1, ih.2]
  unfold meanEnvelope
  refine ⟨(key n).1, le_trans (key n).2 ?_⟩
  rw [mul_div_cancel₀ _ hn'.ne']

/-- The followers of the node are within the loudest sample so far. -/
structure Ok (k : Compressor) (channels maximum : Nat) (M : ℝ) : Prop where
  count : k.envelopes.length = channels
  maximum : k.maximumFrameCount = maximum
  followers : ∀ e ∈ k.envelopes, e.Ok ∧ e.level ≤ M

theorem new_ok (channels sr maximum : Nat) (hsr : 0 < sr) (M : ℝ) (hM : 0 ≤ M) :
    (new channels sr maximum).Ok channels maximum M := by
  refine ⟨by simp [new], rfl, ?_⟩
  intro e he
  have := List.eq_of_mem_replicate he
  subst this
  exact ⟨Follower.new_ok (by exact_mod_cast hsr) _ _, hM⟩

/-- What a block does. -/
theorem processAudio_ok (toDuration : ℝ → Nat) {isZero isOne : ℝ → Bool} (hz : ∀ x, isZero x = true → x = 0)
    (ho : ∀ x, isOne x = true → x = 1) (k : Compressor) (p : CompressorValues) (input : Grid ℝ) (maximum : Nat)
    (M : ℝ) (hM : 0 ≤ M) (h : k.Ok input.channels maximum M) (hf : input.frames ≤ maximum)
    (hs : ∀ c f, c < input.channels → f < input.frames → |input.val c f| ≤ M) (hc : 0 < input.channels) :
    ∃ k' out, ∃ envelope : Nat → ℝ, k.processAudio toDuration isZero isOne p input = .ok (k', out) ∧
      k'.Ok input.channels maximum M ∧ out.channels = input.channels ∧ out.frames = input.frames ∧
      (∀ f, 0 ≤ envelope f ∧ envelope f ≤ M) ∧
      ∀ c f, c < input.channels → f < input.frames →
        (∀ g, calculateGainReduction (Level.fromLinear (envelope f)) (p.knee f) (p.threshold f) (p.ratio f) = some g →
          out.val c f = some (input.val c f * g * p.wet f + input.val c f * p.dry f)) := by
  unfold processAudio processEnvelope
  rw [if_pos (by rw [h.count])]
  simp only [bind, Except.bind]
  rw [if_pos (by rw [h.maximum]; exact hf)]
  obtain ⟨rows, hrows⟩ : ∃ rows, (List.range input.channels).map (fun c =>
      followChannel toDuration p (input.val c) 0 (min input.frames k.maximumFrameCount)
        (k.envelopes.getD c ⟨0, 0, 0, 0, 0, 0⟩)) = rows := ⟨_, rfl⟩
  have hrow : ∀ r ∈ rows, (r.1.Ok ∧ r.1.level ≤ M) ∧ ∀ v ∈ r.2, 0 ≤ v ∧ v ≤ M := by
    intro r hr
    rw [← hrows, List.mem_map] at hr
    obtain ⟨c, hc', rfl⟩ := hr
    have hc' := List.mem_range.mp hc'
    have hmem : k.envelopes.getD c ⟨0, 0, 0, 0, 0, 0⟩ ∈ k.envelopes := by
      rw [List.getD_eq_getElem?_getD, List.getElem?_eq_getElem (by rw [h.count]; exact hc')]
      exact List.getElem_mem _
    obtain ⟨a1, a2⟩ := h.followers _ hmem
    obtain ⟨b1, b2, _, b4⟩ := followChannel_ok toDuration p (input.val c) M
      (min input.frames k.maximumFrameCount) 0 _ a1 a2 (fun i _ hi => hs c i hc' (by omega))
    exact ⟨⟨b1, b2⟩, b4⟩
  rw [hrows]
  refine ⟨_, _, meanEnvelope (rows.map (·.2)) input.channels, rfl, ⟨?_, h.maximum, ?_⟩, ?_, ?_, ?_, ?_⟩
  · simp only [List.length_append, List.length_map, List.length_drop, ← hrows, List.length_range, h.count]
    omega
  · intro e he
    simp only [List.mem_append, List.mem_map] at he
    rcases he with ⟨r, hr, rfl⟩ | he
    · exact (hrow r hr).1
    · exact h.followers e (List.mem_of_mem_drop he)
  · simp only
    rw [(applyGain_frames _ _).2, (applyGain_frames _ _).2]
  · simp only
    rw [(applyGain_frames _ _).1, (applyGain_frames _ _).1]
  · intro f
    apply meanEnvelope_bounds _ _ _ hc M hM
    intro row hr v hv
    rw [List.mem_map] at hr
    obtain ⟨r, hr, rfl⟩ := hr
    exact (hrow r hr).2 v hv
  · intro c f hc' hf' g hg
    simp only
    generalize hG : (fun f => calculateGainReduction (Level.fromLinear
      (meanEnvelope (rows.map (·.2)) input.channels f)) (p.knee f) (p.threshold f) (p.ratio f)) = G
    have hgf : G f = some g := by rw [← hG]; exact hg
    have h1 := applyGain_eq (isZero := isZero) (isOne := isOne) hz ho G
      ⟨input.channels, input.frames, fun c f => some (input.val c f)⟩ c f hf' (input.val c f) g rfl hgf
    have h2 := applyGain_eq (isZero := isZero) (isOne := isOne) hz ho (fun f => some (p.wet f)) _ c f
      (by rw [(applyGain_frames _ _).1]; exact hf') _ (p.wet f) h1 rfl
    rw [h2]
    rfl

end Compressor
end Rawdio
