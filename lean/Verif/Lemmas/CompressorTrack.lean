import Verif.Lemmas.Compressor
import Verif.Spec.Compressor

/-! Helper lemmas: the compressor on signals of any length. -/

namespace Rawdio

namespace Follower

theorem setTimes {e : Follower} {sr : Nat} (h : e.Ok) (hr : e.sampleRate = sr) (a r : Nat) :
    ((e.setAttackTime a).setReleaseTime r).Ok ∧ ((e.setAttackTime a).setReleaseTime r).sampleRate = sr ∧
      ((e.setAttackTime a).setReleaseTime r).level = e.level ∧
      ((e.setAttackTime a).setReleaseTime r).attackCoefficient = calculateCoefficient sr a ∧
      ((e.setAttackTime a).setReleaseTime r).releaseCoefficient = calculateCoefficient sr r := by
  obtain ⟨h1, h2⟩ := h.setAttack a
  obtain ⟨h3, h4⟩ := h1.setRelease r
  have s1 : (e.setAttackTime a).sampleRate = sr ∧ (e.setAttackTime a).attackTime = a := by
    unfold setAttackTime
    split
    · exact ⟨hr, rfl⟩
    · rename_i hne; exact ⟨hr, not_not.mp hne⟩
  have s2 : ((e.setAttackTime a).setReleaseTime r).sampleRate = sr ∧
      ((e.setAttackTime a).setReleaseTime r).attackTime = a ∧ ((e.setAttackTime a).setReleaseTime r).releaseTime = r := by
    unfold setReleaseTime
    split
    · exact ⟨s1.1, s1.2, rfl⟩
    · rename_i hne; exact ⟨s1.1, s1.2, not_not.mp hne⟩
  refine ⟨h3, s2.1, by rw [h4, h2], ?_, ?_⟩
  · rw [h3.attack, s2.1, s2.2.1]
  · rw [h3.release, s2.1, s2.2.2]

end Follower

namespace Compressor

theorem weight_eq {sr : Nat} (hsr : 0 < sr) (t : ℝ) : Follower.calculateCoefficient sr (nanoseconds t) = weight sr t := by
  have hs : (0 : ℝ) < sr := by exact_mod_cast hsr
  unfold Follower.calculateCoefficient weight
  by_cases h : nanoseconds t = 0
  · rw [if_pos h, if_pos (by rw [h]; simp)]
  · have : (0 : ℝ) < nanoseconds t := by exact_mod_cast Nat.pos_of_ne_zero h
    rw [if_neg h, if_neg (by positivity)]

/-- A follower in frame order. -/
theorem followChannel_at {sr : Nat} (hsr : 0 < sr) (p : CompressorValues) (samples : Nat → ℝ) (attack release x : ℕ → ℝ)
    (F m : Nat) (ha : ∀ f < m, p.attack f = attack (F + f)) (hr : ∀ f < m, p.release f = release (F + f))
    (hx : ∀ f < m, samples f = x (F + f)) (n : Nat) : ∀ (f : Nat) (e : Follower), f + n ≤ m → e.Ok → e.sampleRate = sr →
    e.level = levelAfter sr attack release x (F + f) →
    (followChannel nanoseconds p samples f n e).1.Ok ∧ (followChannel nanoseconds p samples f n e).1.sampleRate = sr ∧
      (followChannel nanoseconds p samples f n e).1.level = levelAfter sr attack release x (F + f + n) ∧
      ∀ j < n, (followChannel nanoseconds p samples f n e).2[j]? =
        some (levelAfter sr attack release x (F + f + j + 1)) := by
  induction n with
  | zero => intro f e _ h1 h2 h3; exact ⟨h1, h2, h3, by intro j hj; omega⟩
  | succ n ih =>
    intro f e hm h1 h2 h3
    obtain ⟨s1, s2, s3, s4, s5⟩ := Follower.setTimes h1 h2 (nanoseconds (p.attack f)) (nanoseconds (p.release f))
    obtain ⟨e', he'⟩ : ∃ e', e' = (e.setAttackTime (nanoseconds (p.attack f))).setReleaseTime (nanoseconds (p.release f)) :=
      ⟨_, rfl⟩
    rw [← he'] at s1 s2 s3 s4 s5
    have hl : (e'.process (samples f)).2 = levelAfter sr attack release x (F + f + 1) := by
      rw [levelAfter]
      simp only [Follower.process]
      rw [s3, s4, s5, weight_eq hsr, weight_eq hsr, ha f (by omega), hr f (by omega), hx f (by omega), h3]
    have hl' : (e'.process (samples f)).1.level = levelAfter sr attack release x (F + (f + 1)) := hl
    obtain ⟨c1, c2, c3, c4⟩ := ih (f + 1) (e'.process (samples f)).1 (by omega) (s1.process _) s2 hl'
    rw [followChannel]
    simp only
    rw [← he']
    refine ⟨c1, c2, by rw [c3]; congr 1; omega, ?_⟩
    intro j hj
    cases j with
    | zero => rw [List.getElem?_cons_zero, hl]
    | succ j =>
      rw [List.getElem?_cons_succ, c4 j (by omega)]
      congr 2
      omega

theorem decibels_eq (x : ℝ) : (Level.fromLinear x).asDb = decibels x := rfl

/-- The gain, unless it is 0/0. -/
theorem reduction_eq {l : Level} {knee threshold ratio : ℝ} (h : ¬ (knee = 0 ∧ l.asDb = threshold)) :
    calculateGainReduction l knee threshold ratio = some (reduction l.asDb knee threshold ratio) := by
  unfold calculateGainReduction outputDb reduction
  simp only
  have hk : 1 / 2 * knee = knee / 2 := by ring
  rw [hk]
  by_cases h1 : l.asDb < threshold + knee / 2
  · rw [if_pos h1, if_pos h1, Option.map_some, sub_self, Level.fromDb, if_neg (by unfold Level.minusInfinityDecibels; norm_num)]
    simp
  · rw [if_neg h1, if_neg h1]
    have key : ∀ d, d = (threshold - l.asDb) * (1 - 1 / ratio) → (Level.fromDb d).linear =
        if (threshold - l.asDb) * (1 - 1 / ratio) ≤ -128 then 0
        else (10 : ℝ) ^ ((threshold - l.asDb) * (1 - 1 / ratio) / 20) := by
      rintro d rfl
      unfold Level.fromDb Level.minusInfinityDecibels
      split <;> rfl
    by_cases h2 : l.asDb > threshold + knee / 2
    · rw [if_pos h2, Option.map_some, key]
      ring
    · have he : l.asDb = threshold + knee / 2 := le_antisymm (not_lt.mp h2) (not_lt.mp h1)
      have hne : knee ≠ 0 := fun h0 => h ⟨h0, by rw [he, h0]; ring⟩
      rw [if_neg h2, if_neg (by simpa using hne), Option.map_some, key]
      rw [he]
      field_simp
      ring

theorem mean_sum (values : List (List ℝ)) (n f : Nat) : meanEnvelope values n f =
    ∑ c ∈ Finset.range n, (values.getD c []).getD f 0 / n := by
  unfold meanEnvelope
  have : ∀ k : Nat, (List.range k).foldl (fun envelope c => envelope + (values.getD c []).getD f 0 / (n : ℝ)) 0 =
      ∑ c ∈ Finset.range k, (values.getD c []).getD f 0 / (n : ℝ) := by
    intro k
    induction k with
    | zero => simp
    | succ k ih => rw [List.range_succ, List.foldl_append, Finset.sum_range_succ, ← ih]; rfl
  exact this n

/-- The compressor after `F` frames of `x`. -/
structure AtTime (channels sr maximum : Nat) (attack release : ℕ → ℝ) (x : ℕ → ℕ → ℝ) (F : ℕ) (k : Compressor) :
    Prop where
  count : k.envelopes.length = channels
  maximum : k.maximumFrameCount = maximum
  levels : ∀ c < channels, ∃ e, k.envelopes[c]? = some e ∧ e.Ok ∧ e.sampleRate = sr ∧
    e.level = levelAfter sr attack release (x c) F

theorem new_at (channels sr maximum : Nat) (hsr : 0 < sr) (attack release : ℕ → ℝ) (x : ℕ → ℕ → ℝ) :
    (new channels sr maximum).AtTime channels sr maximum attack release x 0 := by
  refine ⟨by simp [new], rfl, ?_⟩
  intro c hc
  refine ⟨Follower.new sr 1000000 10000000, ?_, Follower.new_ok (by exact_mod_cast hsr) _ _, rfl, rfl⟩
  simp [new, hc]

theorem levelAfter_agree {sr : Nat} {attack release x attack' release' x' : ℕ → ℝ} {n : ℕ}
    (ha : ∀ i < n, attack i = attack' i) (hr : ∀ i < n, release i = release' i) (hx : ∀ i < n, x i = x' i) :
    levelAfter sr attack release x n = levelAfter sr attack' release' x' n := by
  induction n with
  | zero => rfl
  | succ n ih =>
    rw [levelAfter, levelAfter, ih (fun i hi => ha i (by omega)) (fun i hi => hr i (by omega)) (fun i hi => hx i (by omega)),
      ha n (by omega), hr n (by omega), hx n (by omega)]

theorem loudness_agree {sr channels : Nat} {attack release attack' release' : ℕ → ℝ} {x x' : ℕ → ℕ → ℝ} {F : ℕ}
    (ha : ∀ i ≤ F, attack i = attack' i) (hr : ∀ i ≤ F, release i = release' i) (hx : ∀ c, ∀ i ≤ F, x c i = x' c i) :
    loudness sr channels attack release x F = loudness sr channels attack' release' x' F := by
  unfold loudness
  congr 1
  apply Finset.sum_congr rfl
  intro c _
  rw [levelAfter_agree (fun i hi => ha i (by omega)) (fun i hi => hr i (by omega)) (fun i hi => hx c i (by omega))]

theorem AtTime.agree {channels sr maximum : Nat} {attack release attack' release' : ℕ → ℝ} {x x' : ℕ → ℕ → ℝ} {F : ℕ}
    {k : Compressor} (h : k.AtTime channels sr maximum attack release x F) (ha : ∀ i < F, attack i = attack' i)
    (hr : ∀ i < F, release i = release' i) (hx : ∀ c, ∀ i < F, x c i = x' c i) :
    k.AtTime channels sr maximum attack' release' x' F := by
  refine ⟨h.count, h.maximum, ?_⟩
  intro c hc
  obtain ⟨e, h1, h2, h3, h4⟩ := h.levels c hc
  exact ⟨e, h1, h2, h3, by rw [h4, levelAfter_agree ha hr (hx c)]⟩

/-- What a block does where the gain is not 0/0. -/
theorem processAudio_at {isZero isOne : ℝ → Bool} (hz : ∀ x, isZero x = true → x = 0) (ho : ∀ x, isOne x = true → x = 1)
    {channels sr maximum : Nat} (hsr : 0 < sr) {attack release : ℕ → ℝ} {x : ℕ → ℕ → ℝ} {F m : ℕ} {k : Compressor}
    (h : k.AtTime channels sr maximum attack release x F) (p : CompressorValues) (input : Grid ℝ)
    (hc : input.channels = channels) (hf : input.frames = m) (hm : m ≤ maximum)
    (hx : ∀ c < channels, ∀ f < m, input.val c f = x c (F + f)) (ha : ∀ f < m, p.attack f = attack (F + f))
    (hr : ∀ f < m, p.release f = release (F + f)) :
    ∃ k' out, k.processAudio nanoseconds isZero isOne p input = .ok (k', out) ∧
      k'.AtTime channels sr maximum attack release x (F + m) ∧ out.channels = channels ∧ out.frames = m ∧
      ∀ c < channels, ∀ f < m, ∀ g, calculateGainReduction
          ⟨∑ c ∈ Finset.range channels, levelAfter sr attack release (x c) (F + f + 1) / channels⟩
          (p.knee f) (p.threshold f) (p.ratio f) = some g →
        out.val c f = some (x c (F + f) * g * p.wet f + x c (F + f) * p.dry f) := by
  subst hc hf
  unfold processAudio processEnvelope
  rw [if_pos (by rw [h.count])]
  simp only [bind, Except.bind]
  rw [if_pos (by rw [h.maximum]; exact hm)]
  obtain ⟨row, hrow⟩ : ∃ row : Nat → Follower × List ℝ, row = fun c =>
      followChannel nanoseconds p (input.val c) 0 (min input.frames k.maximumFrameCount)
        (k.envelopes.getD c ⟨0, 0, 0, 0, 0, 0⟩) := ⟨_, rfl⟩
  have hmin : min input.frames k.maximumFrameCount = input.frames := by rw [h.maximum]; exact min_eq_left hm
  have hall : ∀ c < input.channels, (row c).1.Ok ∧ (row c).1.sampleRate = sr ∧
      (row c).1.level = levelAfter sr attack release (x c) (F + input.frames) ∧
      ∀ j < input.frames, (row c).2[j]? = some (levelAfter sr attack release (x c) (F + j + 1)) := by
    intro c hc
    obtain ⟨e, e1, e2, e3, e4⟩ := h.levels c hc
    have := followChannel_at hsr p (input.val c) attack release (x c) F input.frames ha hr (hx c hc) input.frames 0 e
      (by omega) e2 e3 e4
    rw [hrow]
    simp only
    rw [hmin, List.getD_eq_getElem?_getD, e1, Option.getD_some]
    simpa using this
  rw [← hrow]
  have hmean : ∀ f < input.frames, meanEnvelope (((List.range input.channels).map row).map (·.2)) input.channels f =
      ∑ c ∈ Finset.range input.channels, levelAfter sr attack release (x c) (F + f + 1) / input.channels := by
    intro f hf
    rw [mean_sum]
    apply Finset.sum_congr rfl
    intro c hc
    have hc := Finset.mem_range.mp hc
    have hr : (((List.range input.channels).map row).map (·.2)).getD c [] = (row c).2 := by
      rw [List.getD_eq_getElem?_getD, List.getElem?_map, List.getElem?_map, List.getElem?_range hc]
      rfl
    rw [hr, List.getD_eq_getElem?_getD, (hall c hc).2.2.2 f hf, Option.getD_some]
  refine ⟨_, _, rfl, ⟨?_, h.maximum, ?_⟩, ?_, ?_, ?_⟩
  · simp only [List.length_append, List.length_map, List.length_drop, List.length_range, h.count]
    omega
  · intro c hc
    refine ⟨(row c).1, ?_, (hall c hc).1, (hall c hc).2.1, (hall c hc).2.2.1⟩
    rw [List.getElem?_append_left (by simpa using hc), List.getElem?_map, List.getElem?_map, List.getElem?_range hc]
    rfl
  · simp only
    rw [(applyGain_frames _ _).2, (applyGain_frames _ _).2]
  · simp only
    rw [(applyGain_frames _ _).1, (applyGain_frames _ _).1]
  · intro c hc f hf
    simp only
    obtain ⟨G, hG⟩ : ∃ G : Nat → Option ℝ, G = fun f => calculateGainReduction (Level.fromLinear
      (meanEnvelope (((List.range input.channels).map row).map (·.2)) input.channels f)) (p.knee f) (p.threshold f)
      (p.ratio f) := ⟨_, rfl⟩
    rw [← hG]
    have hGf : G f = calculateGainReduction ⟨∑ c ∈ Finset.range input.channels,
        levelAfter sr attack release (x c) (F + f + 1) / input.channels⟩ (p.knee f) (p.threshold f) (p.ratio f) := by
      rw [hG]
      simp only
      rw [hmean f hf]
      rfl
    intro g hg
    rw [← hGf] at hg
    have h1 := applyGain_eq (isZero := isZero) (isOne := isOne) hz ho G
      ⟨input.channels, input.frames, fun c f => some (input.val c f)⟩ c f hf (input.val c f) g rfl hg
    have h2 := applyGain_eq (isZero := isZero) (isOne := isOne) hz ho (fun f => some (p.wet f)) _ c f
      (by rw [(applyGain_frames _ _).1]; exact hf) _ (p.wet f) h1 rfl
    rw [h2, hx c hc f hf]
    rfl

end Compressor
end Rawdio
