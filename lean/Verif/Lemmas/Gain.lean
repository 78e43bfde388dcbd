import Verif.Spec.Gain
import Verif.Lemmas.EngineView
import Verif.Lemmas.Parameter2
import Verif.Props.Parameter2

/-! # The gain node in an engine -/

namespace Rawdio
namespace Gain

open RealtimeParameter Processor

theorem sample_eq {isZero isOne : ℝ → Bool} (hz : ∀ x, isZero x = true → x = 0)
    (ho : ∀ x, isOne x = true → x = 1) (gain : List ℝ) (x : ℝ) (f : Nat) (hf : f < gain.length) :
    sample isZero isOne gain x f = x * gain.getD f 0 := by
  have hm : gain.getD f 0 = gain[f] := by simp [List.getD_eq_getElem?_getD, hf]
  unfold sample
  split
  · rename_i h
    rw [hm, hz _ (List.all_eq_true.mp h _ (List.getElem_mem _)), mul_zero]
  · split
    · rename_i h
      rw [hm, ho _ (List.all_eq_true.mp h _ (List.getElem_mem _)), mul_one]
    · rfl

theorem sample_zero (isZero isOne : ℝ → Bool) (gain : List ℝ) (f : Nat) :
    sample isZero isOne gain 0 f = 0 := by
  unfold sample
  split
  · rfl
  · split <;> simp

theorem getD_left {l m : List ℝ} {i : Nat} (h : i < l.length) : (l ++ m).getD i 0 = l.getD i 0 := by
  rw [List.getD_eq_getElem?_getD, List.getD_eq_getElem?_getD, List.getElem?_append_left h]

theorem getD_right {l m : List ℝ} {i : Nat} (h : l.length ≤ i) :
    (l ++ m).getD i 0 = m.getD (i - l.length) 0 := by
  rw [List.getD_eq_getElem?_getD, List.getD_eq_getElem?_getD, List.getElem?_append_right h]

theorem processAll_append (sr : Nat) (as bs : List (Int × Nat)) : ∀ p : RealtimeParameter ℝ,
    processAll realArith sr p (as ++ bs) =
      ((processAll realArith sr p as).1 ++ (processAll realArith sr (processAll realArith sr p as).2 bs).1,
        (processAll realArith sr (processAll realArith sr p as).2 bs).2) := by
  induction as with
  | nil => intro p; rfl
  | cons a as ih => intro p; simp only [List.cons_append, processAll, ih, List.append_assoc]

theorem gainValues_append (sr : Nat) (hs gs : List (List (ParameterChange ℝ) × List (Int × Nat))) :
    ∀ p, gainValues sr p (hs ++ gs) =
      ((gainValues sr p hs).1 ++ (gainValues sr (gainValues sr p hs).2 gs).1,
        (gainValues sr (gainValues sr p hs).2 gs).2) := by
  induction hs with
  | nil => intro p; rfl
  | cons h hs ih => intro p; simp only [List.cons_append, gainValues, ih, List.append_assoc]

theorem tiles_length (sr full : Nat) (now : Int) (tiles : List (Nat × Nat)) : ∀ a b, Tiles full a b tiles →
    a ≤ b ∧ (frameTimes sr (tiles.map fun b => (Timestamp.incrementedBySamples now b.1 sr, b.2))).length = b - a := by
  induction tiles with
  | nil => intro a b h; cases h; exact ⟨le_refl _, by simp [frameTimes]⟩
  | cons x xs ih =>
    intro a b h
    obtain ⟨h1, h2, h3, h4, h5⟩ := h
    obtain ⟨i1, i2⟩ := ih _ _ h5
    refine ⟨by omega, ?_⟩
    rw [List.map_cons, frameTimes_cons, List.length_append, i2]
    simp only [List.length_map, List.length_range]
    omega

theorem blocksOf_length {full sr first total : Nat} {bs : List (Int × Nat)}
    (h : BlocksOf full sr first total bs) : (frameTimes sr bs).length = total := by
  obtain ⟨now, tiles, _, h2, rfl⟩ := h
  rw [(tiles_length sr full now tiles _ _ h2).2]; omega

/-- One process call. -/
theorem gain_call {isZero isOne : ℝ → Bool} (hz : ∀ x, isZero x = true → x = 0)
    (ho : ∀ x, isOne x = true → x = 1) {id n full total channels mc sr offset : Nat} {now : Int}
    {input : Buf ℝ} {out : Nat → Nat → Option ℝ} {before after : Id → Option (Dsp (RealtimeParameter ℝ))}
    (hfull : 0 < full)
    (h : RenderedCall (ops isZero isOne) ⟨[id], []⟩ full total channels mc sr now input (some id) (some id) out
      offset before after) : offset ≤ total → ∀ p, before id = some ⟨id, n, n, p⟩ →
    ∃ tiles, Tiles full offset total tiles ∧
      let r := processAll realArith sr p (tiles.map fun b => (Timestamp.incrementedBySamples now b.1 sr, b.2))
      after id = some ⟨id, n, n, r.2⟩ ∧
      ∀ c f, c < channels → offset ≤ f → f < total → out c f = some
        (if c < n ∧ c < mc then input.sampleOrSilence c f * r.1.getD (f - offset) 0 else 0) := by
  induction h with
  | done offset states hd =>
    intro hle p hp
    exact ⟨[], by simp only [Tiles]; omega, hp, fun c f _ h1 h2 => by omega⟩
  | block offset frames before mid after window sig h1 h2 h3 h4 hr ho' _ ih =>
    intro hle p hp
    obtain ⟨d, o, st, r1, r2, r3, r4⟩ := hr.run id (by simp)
    rw [hp] at r1
    injection r1 with r1
    subst r1
    simp only [ops] at r2
    injection r2 with r2
    injection r2 with r2 r2'
    subst r2'
    obtain ⟨tiles, t1, t2, t3⟩ := ih (by omega) _ r3
    have hlen : (process realArith p (Timestamp.incrementedBySamples now offset sr) frames sr).1.length = frames :=
      process_length ..
    refine ⟨(offset, frames) :: tiles, ⟨rfl, by omega, by omega, by omega, t1⟩, ?_, ?_⟩
    · simpa only [List.map_cons, processAll] using t2
    · intro c f hc hf1 hf2
      simp only [List.map_cons, processAll]
      by_cases hf : f < offset + frames
      · obtain ⟨g, rfl⟩ := Nat.exists_eq_add_of_le hf1
        have hg : g < frames := by omega
        rw [ho' c g hc hg]
        simp only [List.mem_singleton, true_and, Nat.add_sub_cancel_left]
        rw [r4 c g, ← r2, getD_left (by omega)]
        by_cases hcm : c < mc
        · by_cases hcn : c < n
          · rw [if_pos hcm, if_pos ⟨hcn, hg⟩, if_pos ⟨hcn, hcm⟩]
            congr 1
            show sample isZero isOne _ _ _ = _
            rw [sample_eq hz ho _ _ _ (by rw [hlen]; exact hg)]
            congr 1
            simp only [Rawdio.window, if_pos (And.intro hcn hg), Option.getD_some]
            simp only [Patch.received, Patch.at', List.filter_nil, arrivesFromSystem, true_and]
            unfold Buf.sampleOrSilence
            by_cases hci : c < input.channelCount
            · rw [if_pos ⟨by omega, hg⟩, h4 c g hg]
            · rw [if_neg (by omega), Buf.sample?_eq_none _ _ _ (by omega)]; rfl
          · rw [if_pos hcm, if_neg (fun h => hcn h.1), if_neg (fun h => hcn h.1)]
        · rw [if_neg hcm, if_neg (by omega)]
      · rw [t3 c f hc (by omega) hf2, getD_right (by omega), hlen]
        rw [show f - (offset + frames) = f - offset - frames by omega]

/-- Requested changes join the queue. -/
theorem changes_effects {isZero isOne : ℝ → Bool} {id n : Nat} (cs : List (ParameterChange ℝ)) :
    ∀ (V W : View (RealtimeParameter ℝ)) (p : RealtimeParameter ℝ), V.node id = some ⟨id, n, n, p⟩ →
    Command.Effects (ops isZero isOne) V (cs.map (Command.change id)) W →
    W.patch = V.patch ∧ W.running = V.running ∧ W.fromSystem = V.fromSystem ∧ W.toSystem = V.toSystem ∧
      W.frames = V.frames ∧ W.node id = some ⟨id, n, n, cs.foldl addChange p⟩ := by
  induction cs with
  | nil =>
    intro V W p hp h
    cases h
    exact ⟨rfl, rfl, rfl, rfl, rfl, hp⟩
  | cons c cs ih =>
    intro V W p hp h
    rw [List.map_cons] at h
    cases h with
    | cons h1 h2 =>
      cases h1 with
      | change _ _ d s e1 e2 =>
        rw [hp] at e1
        injection e1 with e1
        subst e1
        injection e2 with e2
        subst e2
        obtain ⟨i1, i2, i3, i4, i5, i6⟩ := ih _ _ (p.addChange c) (by simp) h2
        exact ⟨i1, i2, i3, i4, i5, i6⟩
      | changeAbsent _ _ e1 => rw [hp] at e1; cases e1

/-- What the program sees between process calls. -/
structure Playing (id n : Nat) (p : RealtimeParameter ℝ) (frames : Nat) (V : View (RealtimeParameter ℝ)) : Prop where
  patch : V.patch = ⟨[id], []⟩
  node : V.node id = some ⟨id, n, n, p⟩
  running : V.running = true
  fromSystem : V.fromSystem = some id
  toSystem : V.toSystem = some id
  frames : V.frames = frames

theorem commands_effects {isZero isOne : ℝ → Bool} {id n F : Nat} {first : Bool} {p : RealtimeParameter ℝ}
    {cs : List (ParameterChange ℝ)} {V W : View (RealtimeParameter ℝ)}
    (hV : if first then V = View.empty ∧ p = initial ∧ F = 0 else Playing id n p F V)
    (h : Command.Effects (ops isZero isOne) V (gainCommands id n first cs) W) :
    Playing id n (cs.foldl addChange p) F W := by
  have key : ∀ V W, Playing id n p F V →
      Command.Effects (ops isZero isOne) V (cs.map (Command.change id)) W →
      Playing id n (cs.foldl addChange p) F W := by
    intro V W hV h
    obtain ⟨i1, i2, i3, i4, i5, i6⟩ := changes_effects cs V W p hV.node h
    exact ⟨i1.trans hV.patch, i6, i2.trans hV.running, i3.trans hV.fromSystem, i4.trans hV.toSystem,
      i5.trans hV.frames⟩
  cases first with
  | false => exact key V W (by simpa using hV) (by simpa [gainCommands] using h)
  | true =>
    obtain ⟨rfl, rfl, rfl⟩ : V = View.empty ∧ p = initial ∧ F = 0 := by simpa using hV
    simp only [gainCommands, if_true, List.cons_append, List.nil_append] at h
    cases h with
    | cons h1 h =>
    cases h with
    | cons h2 h =>
    cases h with
    | cons h3 h =>
    cases h with
    | cons h4 h =>
      cases h1 with
      | addDsp _ q hq =>
        cases h2
        cases h3
        cases h4
        cases hq
        exact key _ _ ⟨rfl, by simp, rfl, rfl, rfl, rfl⟩ h

/-- The next process call. -/
theorem step_stream {isZero isOne : ℝ → Bool} (hz : ∀ x, isZero x = true → x = 0)
    (ho : ∀ x, isOne x = true → x = 1) {id n mf mc sr F : Nat} (hm : 0 < mf) {first : Bool}
    {p : RealtimeParameter ℝ} {cs : List (ParameterChange ℝ)} {V W : View (RealtimeParameter ℝ)}
    (hV : if first then V = View.empty ∧ p = initial ∧ F = 0 else Playing id n p F V) {k : GainCall}
    (hk : k.commands.map Prod.fst = gainCommands id n first cs) {out : Nat → Nat → Option ℝ}
    (h : View.Call (ops isZero isOne) mf mc sr V k out W) :
    ∃ bs, BlocksOf mf sr F k.output.frameCount bs ∧
      Playing id n (processAll realArith sr (cs.foldl addChange p) bs).2 (F + k.output.frameCount) W ∧
      ∀ c f, c < k.output.channelCount → f < k.output.frameCount → out c f = some
        (if c < n ∧ c < mc then k.input.sampleOrSilence c f *
          (processAll realArith sr (cs.foldl addChange p) bs).1.getD f 0 else 0) := by
  cases h with
  | stopped _ _ _ e1 e2 _ =>
    rw [hk] at e1
    have := (commands_effects hV e1).running
    rw [e2] at this
    cases this
  | running W' _ now node _ e1 e2 e3 e4 =>
    rw [hk] at e1
    have hP := commands_effects hV e1
    rw [hP.patch, hP.fromSystem, hP.toSystem] at e4
    obtain ⟨tiles, t1, t2, t3⟩ := gain_call hz ho hm e4 (Nat.zero_le _) _ hP.node
    rw [hP.frames] at e3
    refine ⟨_, ⟨now, tiles, e3, t1, rfl⟩, ⟨hP.patch, t2, hP.running, hP.fromSystem, hP.toSystem, ?_⟩, ?_⟩
    · simp only [hP.frames]
    · intro c f hc hf
      rw [t3 c f hc (Nat.zero_le _) hf, Nat.sub_zero]

theorem framesIn_append {S P C : Type} (ks : List (Call S P C)) (k : Call S P C) :
    framesIn (ks ++ [k]) = framesIn ks + k.output.frameCount := by simp [framesIn]

theorem history_snoc {S P C : Type} {mf sr : Nat} {changes : Nat → List (ParameterChange ℝ)} {ks : List (Call S P C)}
    {hist : List (List (ParameterChange ℝ) × List (Int × Nat))} (h : GainHistory mf sr changes ks hist)
    {k : Call S P C} {bs : List (Int × Nat)} (hb : BlocksOf mf sr (framesIn ks) k.output.frameCount bs) :
    GainHistory mf sr changes (ks ++ [k]) (hist ++ [(changes ks.length, bs)]) := by
  obtain ⟨h1, h2⟩ := h
  refine ⟨by simp [h1], ?_⟩
  intro i k' h' hk hh
  rcases Nat.lt_trichotomy i ks.length with hi | hi | hi
  · rw [List.getElem?_append_left hi] at hk
    rw [List.getElem?_append_left (by omega)] at hh
    rw [List.take_append_of_le_length hi.le]
    exact h2 i k' h' hk hh
  · subst hi
    rw [List.getElem?_append_right (le_refl _), Nat.sub_self] at hk
    rw [List.getElem?_append_right h1.le, h1, Nat.sub_self] at hh
    simp only [List.getElem?_cons_zero, Option.some.injEq] at hk hh
    subst hk hh
    refine ⟨rfl, ?_⟩
    rw [List.take_append_of_le_length (le_refl _), List.take_length]
    exact hb
  · rw [List.getElem?_eq_none (by simp; omega)] at hk
    cases hk

/-- What is known before a process call. -/
theorem first_or_playing {id n sr : Nat} {ks : List GainCall} {V : View (RealtimeParameter ℝ)}
    {hist : List (List (ParameterChange ℝ) × List (Int × Nat))} (hl : hist.length = ks.length)
    (h : if ks.length = 0 then V = View.empty
      else Playing id n (gainValues sr initial hist).2 (framesIn ks) V) :
    if (ks.length == 0) = true then V = View.empty ∧ (gainValues sr initial hist).2 = initial ∧ framesIn ks = 0
    else Playing id n (gainValues sr initial hist).2 (framesIn ks) V := by
  by_cases h0 : ks.length = 0
  · rw [if_pos h0] at h
    rw [if_pos (by simpa using h0)]
    obtain rfl := List.length_eq_zero_iff.mp h0
    obtain rfl := List.length_eq_zero_iff.mp hl
    exact ⟨h, rfl, rfl⟩
  · rw [if_neg h0] at h
    rwa [if_neg (by simpa using h0)]

theorem gainValues_snoc (sr : Nat) (hist : List (List (ParameterChange ℝ) × List (Int × Nat)))
    (cs : List (ParameterChange ℝ)) (bs : List (Int × Nat)) (p : RealtimeParameter ℝ) :
    gainValues sr p (hist ++ [(cs, bs)]) = ((gainValues sr p hist).1 ++
      (processAll realArith sr (cs.foldl addChange (gainValues sr p hist).2) bs).1,
      (processAll realArith sr (cs.foldl addChange (gainValues sr p hist).2) bs).2) := by
  rw [gainValues_append]
  simp [gainValues]

/-- The whole session. -/
theorem session_stream {isZero isOne : ℝ → Bool} (hz : ∀ x, isZero x = true → x = 0)
    (ho : ∀ x, isOne x = true → x = 1) {id n mf mc sr : Nat} (hm : 0 < mf)
    {changes : Nat → List (ParameterChange ℝ)} {ks : List GainCall} {V : View (RealtimeParameter ℝ)}
    (hs : View.Session (ops isZero isOne) mf mc sr ks V) : PlaysGain id n changes ks →
    ∃ hist, GainHistory mf sr changes ks hist ∧
      if ks.length = 0 then V = View.empty
      else Playing id n (gainValues sr initial hist).2 (framesIn ks) V := by
  induction hs with
  | nil => intro _; exact ⟨[], ⟨rfl, fun i k h h1 => by simp at h1⟩, by simp⟩
  | @snoc ks V W k out hs hc ih =>
    intro hp
    obtain ⟨hist, h1, h2⟩ := ih (fun i k' hk' => hp i k' (by
      rw [List.getElem?_append_left (by by_contra hn; rw [List.getElem?_eq_none (by omega)] at hk'; cases hk')]
      exact hk'))
    obtain ⟨bs, b1, b2, _⟩ := step_stream hz ho hm (first_or_playing h1.1 h2) (hp ks.length k (by simp)) hc
    refine ⟨_, history_snoc h1 b1, ?_⟩
    rw [if_neg (by simp), gainValues_snoc, framesIn_append]
    exact b2

theorem gainValues_length (sr : Nat) (hist : List (List (ParameterChange ℝ) × List (Int × Nat))) :
    ∀ p, (gainValues sr p hist).1.length = (frameTimes sr (hist.flatMap Prod.snd)).length := by
  induction hist with
  | nil => intro p; rfl
  | cons h hs ih =>
    intro p
    rw [List.flatMap_cons, frameTimes_append, List.length_append]
    simp only [gainValues, List.length_append, ih, processAll_length]

theorem history_frames {S P C : Type} {mf sr : Nat} {changes : Nat → List (ParameterChange ℝ)} (ks : List (Call S P C)) :
    ∀ {hist : List (List (ParameterChange ℝ) × List (Int × Nat))}, GainHistory mf sr changes ks hist →
    (frameTimes sr (hist.flatMap Prod.snd)).length = framesIn ks := by
  induction ks using List.reverseRecOn with
  | nil =>
    intro hist h
    obtain rfl := List.length_eq_zero_iff.mp h.1
    rfl
  | append_singleton ks k ih =>
    intro hist h
    obtain ⟨h1, h2⟩ := h
    rcases List.eq_nil_or_concat hist with rfl | ⟨hs, x, rfl⟩
    · simp at h1
    · rw [List.concat_eq_append] at *
      have hl : hs.length = ks.length := by simpa using h1
      have hx := h2 ks.length k x (by simp) (by rw [← hl]; simp)
      rw [List.flatMap_append, frameTimes_append, List.length_append, framesIn_append, ih ⟨hl, ?_⟩]
      · have := blocksOf_length hx.2
        simpa using this
      · intro i k' h' hk hh
        have hi : i < ks.length := by
          by_contra hn; rw [List.getElem?_eq_none (by omega)] at hk; cases hk
        have := h2 i k' h' (by rw [List.getElem?_append_left hi]; exact hk)
          (by rw [List.getElem?_append_left (by omega)]; exact hh)
        rwa [List.take_append_of_le_length hi.le] at this

end Gain
end Rawdio
