import Verif.Spec.Engine
import Verif.Lemmas.PoolBuf

/-! Helper lemmas about the loop over blocks in a process call. -/

namespace Rawdio
namespace Processor

variable {S P C γ : Type}

theorem sliceFrames_ok (b : Buf S) (offset n : Nat) (m : Bool) (h : offset + n ≤ b.frameCount) :
    b.sliceFrames offset n m = .ok (.slice b ⟨0, offset, b.channelCount, n⟩ m) := by
  unfold Buf.sliceFrames Buf.mkSlice Buf.rangeIsValid
  have h1 : ¬ b.channelCount < 0 + b.channelCount := by omega
  have h2 : ¬ b.frameCount < offset + n := by omega
  simp only [h1, h2, if_false, if_true]

theorem slice_wf {b : Buf S} (hw : b.WF) (offset n : Nat) (m : Bool) (h : offset + n ≤ b.frameCount) :
    (Buf.slice b ⟨0, offset, b.channelCount, n⟩ m).WF := by
  refine ⟨hw, ?_, ?_⟩
  · simp
  · simpa using h

theorem slice_sample {b : Buf S} (offset n : Nat) (m : Bool) (c f : Nat) (hf : f < n) :
    (Buf.slice b ⟨0, offset, b.channelCount, n⟩ m).sample? c f = b.sample? c (offset + f) := by
  simp only [Buf.sample?, Nat.add_zero, hf, and_true]
  split_ifs with h
  · rw [Nat.add_comm]
  · exact (Buf.sample?_eq_none b c _ (by tauto)).symm

/-- One round of the loop. -/
theorem processLoop_step {run : Nat → γ → Buf S → Buf S → Int → Res (Buf S × γ)} {mf sr : Nat}
    {now : Int} {input output : Buf S} {fuel offset : Nat} {g : γ}
    (he : output.frameCount ≤ input.frameCount) (h : offset < output.frameCount) :
    processLoop run mf sr now input (fuel + 1) offset g output = (do
      let r ← run offset g
        (.slice input ⟨0, offset, input.channelCount, min (output.frameCount - offset) mf⟩ false)
        (.slice output ⟨0, offset, output.channelCount, min (output.frameCount - offset) mf⟩ true)
        (Timestamp.incrementedBySamples now offset sr)
      processLoop run mf sr now input fuel (offset + min (output.frameCount - offset) mf) r.2
        r.1.parent) := by
  rw [processLoop, if_pos h]
  refine (ok_bind (sliceFrames_ok input offset _ false (by omega))).trans ?_
  exact ok_bind (sliceFrames_ok output offset _ true (by omega))

theorem processLoop_done {run : Nat → γ → Buf S → Buf S → Int → Res (Buf S × γ)} {mf sr : Nat}
    {now : Int} {input output : Buf S} {fuel offset : Nat} {g : γ}
    (h : ¬ offset < output.frameCount) :
    processLoop run mf sr now input (fuel + 1) offset g output = .ok (output, g) := by
  rw [processLoop, if_neg h]

theorem validBlock_slice {mf : Nat} {input output : Buf S} {offset : Nat} (hi : input.WF)
    (hw : output.WF) (hm : output.Writable) (he : output.frameCount ≤ input.frameCount)
    (h : offset < output.frameCount) (hmf : 0 < mf) :
    ValidBlock
      (.slice input ⟨0, offset, input.channelCount, min (output.frameCount - offset) mf⟩ false)
      (.slice output ⟨0, offset, output.channelCount, min (output.frameCount - offset) mf⟩ true) := by
  refine ⟨slice_wf hi _ _ _ (by omega), slice_wf hw _ _ _ (by omega), ⟨rfl, hm⟩, ?_, ?_⟩
  · change 0 < min (output.frameCount - offset) mf
    omega
  · exact le_refl _

/-- The rest of a process call from an offset on. -/
theorem processLoop_spec {I : γ → Prop}
    {run : Nat → γ → Buf S → Buf S → Int → Res (Buf S × γ)} (hrun : WritesSlice I run) {mf sr : Nat}
    (hmf : 0 < mf) {now : Int} {input : Buf S} (hi : input.WF) :
    ∀ (fuel offset : Nat) (g : γ) (output o' : Buf S) (g' : γ) (log : List (Entry S)),
    I g → output.WF → output.Writable → output.frameCount ≤ input.frameCount →
    offset ≤ output.frameCount →
    processLoop run mf sr now input fuel offset g output = .ok (o', g') →
    I g' ∧ output.SameShape o' ∧ o'.WF ∧ o'.Writable ∧
    (∀ c f, f < offset → o'.sample? c f = output.sample? c f) ∧
    ∃ log' blocks,
      processLoop (observed run) mf sr now input fuel offset (g, log) output =
        .ok (o', (g', log ++ log')) ∧
      Tiles mf offset output.frameCount blocks ∧
      List.Forall₂ (fun e b => e.Covers input output.channelCount now sr b ∧
        ∀ c f, f < b.2 → o'.sample? c (b.1 + f) = e.result.sample? c f) log' blocks := by
  intro fuel
  induction fuel with
  | zero => intro offset g output o' g' log _ _ _ _ _ h; cases h
  | succ fuel ih =>
    intro offset g output o' g' log hI hw hm he hoff h
    by_cases hlt : offset < output.frameCount
    · rw [processLoop_step he hlt] at h
      obtain ⟨⟨o1, g1⟩, h1, h2⟩ := bind_ok h
      have hvb := validBlock_slice (mf := mf) hi hw hm he hlt hmf
      obtain ⟨hI1, p', rfl, hsh, hw', hm', hrest⟩ := hrun _ _ _ _ _ _ _ _ hI hvb h1
      have hfc := hsh.frameCount
      have hcc := hsh.channelCount
      obtain ⟨e, he'⟩ : ∃ e : Entry S, e = ⟨
        .slice input ⟨0, offset, input.channelCount, min (output.frameCount - offset) mf⟩ false,
        .slice output ⟨0, offset, output.channelCount, min (output.frameCount - offset) mf⟩ true,
        Timestamp.incrementedBySamples now offset sr,
        .slice p' ⟨0, offset, output.channelCount, min (output.frameCount - offset) mf⟩ true⟩ :=
        ⟨_, rfl⟩
      obtain ⟨hI', hsh', hw2, hm2, hkeep, log', blocks, e1, htile, hall⟩ := ih _ g1 p' _ _
        (log ++ [e]) hI1 hw' hm' (by rw [← hfc]; exact he) (by omega) h2
      refine ⟨hI', hsh.trans hsh', hw2, hm2, ?_, e :: log',
        (offset, min (output.frameCount - offset) mf) :: blocks, ?_, ?_, ?_⟩
      · intro c f hf
        rw [hkeep c f (by omega)]
        exact hrest c f (by simp only; omega)
      · rw [processLoop_step he hlt]
        have hobs : observed run offset (g, log)
            (.slice input ⟨0, offset, input.channelCount, min (output.frameCount - offset) mf⟩ false)
            (.slice output ⟨0, offset, output.channelCount, min (output.frameCount - offset) mf⟩ true)
            (Timestamp.incrementedBySamples now offset sr) =
            .ok (.slice p' ⟨0, offset, output.channelCount, min (output.frameCount - offset) mf⟩ true,
              (g1, log ++ [e])) := by
          unfold observed
          rw [he']
          exact ok_bind h1
        refine (ok_bind hobs).trans ?_
        rw [show log ++ e :: log' = log ++ [e] ++ log' by simp]
        exact e1
      · refine ⟨rfl, by omega, by omega, by omega, ?_⟩
        rw [← hfc] at htile
        exact htile
      · subst he'
        refine .cons ⟨⟨rfl, rfl, ?_, rfl, rfl, rfl⟩, ?_⟩ ?_
        · intro c f hf
          exact slice_sample _ _ _ _ _ hf
        · intro c f hf
          simp only at hf ⊢
          rw [hkeep c (offset + f) (by omega)]
          have := slice_sample (b := p') offset (min (output.frameCount - offset) mf) true c f hf
          rw [← hcc] at this
          exact this.symm
        · rw [← hcc] at hall
          exact hall
    · rw [processLoop_done hlt] at h
      injection h with h
      obtain ⟨rfl, rfl⟩ := Prod.mk.inj h
      refine ⟨hI, Buf.SameShape.refl _, hw, hm, fun _ _ _ => rfl, [], [], ?_, ?_, .nil⟩
      · rw [processLoop_done hlt, List.append_nil]
      · have : offset = output.frameCount := by omega
        exact this

/-- A process call returns if the graph does. -/
theorem processLoop_progress {I : γ → Prop}
    {run : Nat → γ → Buf S → Buf S → Int → Res (Buf S × γ)} (hrun : WritesSlice I run)
    (hok : ∀ offset g input output t, I g → ValidBlock input output →
      ∃ r, run offset g input output t = .ok r) {mf sr : Nat}
    (hmf : 0 < mf) {now : Int} {input : Buf S} (hi : input.WF) :
    ∀ (fuel offset : Nat) (g : γ) (output : Buf S),
    I g → output.WF → output.Writable → output.frameCount ≤ input.frameCount →
    offset ≤ output.frameCount → output.frameCount < offset + fuel →
    ∃ r, processLoop run mf sr now input fuel offset g output = .ok r := by
  intro fuel
  induction fuel with
  | zero =>
    intro offset g output _ _ _ _ h1 h2
    omega
  | succ fuel ih =>
    intro offset g output hI hw hm he hoff hfuel
    by_cases hlt : offset < output.frameCount
    · rw [processLoop_step he hlt]
      have hvb := validBlock_slice (mf := mf) hi hw hm he hlt hmf
      obtain ⟨⟨o1, g1⟩, h1⟩ := hok offset g _ _ (Timestamp.incrementedBySamples now offset sr) hI hvb
      obtain ⟨hI1, p', rfl, hsh, hw', hm', _⟩ := hrun _ _ _ _ _ _ _ _ hI hvb h1
      have hfc := hsh.frameCount
      rw [ok_bind h1]
      exact ih _ g1 p' hI1 hw' hm' (by rw [← hfc]; exact he) (by omega) (by omega)
    · exact ⟨_, processLoop_done hlt⟩

theorem tiles_le {full : Nat} : ∀ (bs : List (Nat × Nat)) (a b : Nat), Tiles full a b bs → a ≤ b := by
  intro bs
  induction bs with
  | nil => intro a b h; exact le_of_eq h
  | cons x bs ih =>
    intro a b h
    obtain ⟨_, _, _, _, h⟩ := h
    have := ih _ _ h
    omega

theorem tiles_unique {full : Nat} : ∀ (bs bs' : List (Nat × Nat)) (a b : Nat),
    Tiles full a b bs → Tiles full a b bs' → bs = bs' := by
  intro bs
  induction bs with
  | nil =>
    intro bs' a b h h'
    cases bs' with
    | nil => rfl
    | cons x bs' =>
      obtain ⟨_, h1, _, _, h2⟩ := h'
      have := tiles_le _ _ _ h2
      have : a = b := h
      omega
  | cons x bs ih =>
    intro bs' a b h h'
    obtain ⟨o, n⟩ := x
    obtain ⟨h1, h2, h3, h4, h5⟩ := h
    cases bs' with
    | nil =>
      have := tiles_le _ _ _ h5
      have : a = b := h'
      omega
    | cons x' bs' =>
      obtain ⟨o', n'⟩ := x'
      obtain ⟨h1', h2', h3', h4', h5'⟩ := h'
      have := tiles_le _ _ _ h5
      have := tiles_le _ _ _ h5'
      have hn : n = n' := by omega
      subst hn
      subst h1
      subst h1'
      rw [ih bs' _ _ h5 h5']

theorem tiles_append {full : Nat} (hf : 0 < full) : ∀ (bs bs' : List (Nat × Nat)) (a b d k : Nat),
    b = a + k * full → Tiles full a b bs → Tiles full 0 d bs' →
    Tiles full a (b + d) (bs ++ bs'.map (fun x => (b + x.1, x.2))) := by
  intro bs
  induction bs with
  | nil =>
    intro bs' a b d k _ h h'
    have hab : a = b := h
    subst hab
    have key : ∀ (bs' : List (Nat × Nat)) (e : Nat), Tiles full e d bs' →
        Tiles full (a + e) (a + d) (bs'.map (fun x => (a + x.1, x.2))) := by
      intro bs'
      induction bs' with
      | nil => intro e h; have : e = d := h; subst this; rfl
      | cons x bs' ih =>
        intro e h
        obtain ⟨o, n⟩ := x
        obtain ⟨h1, h2, h3, h4, h5⟩ := h
        refine ⟨by rw [h1], h2, h3, by omega, ?_⟩
        have := ih _ h5
        rw [← Nat.add_assoc] at this
        exact this
    exact key bs' 0 h'
  | cons x bs ih =>
    intro bs' a b d k hk h h'
    obtain ⟨o, n⟩ := x
    obtain ⟨h1, h2, h3, h4, h5⟩ := h
    have hle := tiles_le _ _ _ h5
    have hn : n = full := by
      rcases h4 with h4 | h4
      · exact h4
      · cases k with
        | zero => omega
        | succ k =>
          have : full ≤ (k + 1) * full := Nat.le_mul_of_pos_left _ (by omega)
          omega
    cases k with
    | zero => omega
    | succ k =>
      refine ⟨h1, h2, h3, .inl hn, ?_⟩
      refine ih bs' _ _ _ k ?_ h5 h'
      rw [hk, hn, Nat.succ_mul]
      omega

end Processor
end Rawdio
