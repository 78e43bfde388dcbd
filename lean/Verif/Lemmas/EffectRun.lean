import Verif.Lemmas.EffectSteps
import Verif.Lemmas.Healthy

/-! Helper lemmas: effects can always be rendered. -/

namespace Rawdio

namespace Biquad

theorem response_settings {cs ds : ℕ → Coefficients} {x : ℕ → ℝ} {n : ℕ} (h : ∀ i ≤ n, cs i = ds i) :
    response cs x n = response ds x n := by
  induction n using Nat.strong_induction_on with
  | _ n ih =>
    match n with
    | 0 => simp only [response, h 0 le_rfl]
    | 1 => simp only [response, h 0 (by omega), h 1 le_rfl]
    | n + 2 =>
      rw [response, response, h (n + 2) le_rfl,
        ih n (by omega) (fun i hi => h i (by omega)), ih (n + 1) (by omega) (fun i hi => h i (by omega))]

theorem AtTime.agree {type : FilterType} {sr ch n : Nat} {g g' : Signals} {p : Processor} (h : AtTime type sr ch g n p)
    (hx : ∀ c, ∀ i < n, g.x c i = g'.x c i) (hs : ∀ i < n, g.settings i = g'.settings i) : AtTime type sr ch g' n p := by
  obtain ⟨h1, h2, h3, h4⟩ := h
  refine ⟨h1, h2, h3, ?_⟩
  rw [h4]
  apply List.map_congr_left
  intro c _
  rw [if_neg (by omega), if_neg (by omega)]
  have hr : ∀ i < n, response (fun n => calculate type (g.settings n) sr) (g.x c) i =
      response (fun n => calculate type (g'.settings n) sr) (g'.x c) i := by
    intro i hi
    rw [response_agree (fun j hj => hx c j (by omega)),
      response_settings (fun j hj => by rw [hs j (by omega)])]
  match n with
  | 0 => rfl
  | 1 => simp only [history, hx c 0 (by omega), hr 0 (by omega)]
  | n + 2 => simp only [history, hx c n (by omega), hx c (n + 1) (by omega), hr n (by omega), hr (n + 1) (by omega)]

end Biquad

namespace Convolver

theorem AtTime.agree {ch k maximum n : Nat} {h g g' : ℕ → ℕ → ℝ} {c : Convolver} (hc : AtTime ch h k g maximum n c)
    (hx : ∀ c, ∀ i < n, g c i = g' c i) : AtTime ch h k g' maximum n c := by
  obtain ⟨h1, h2, h3, h4, h5, h6⟩ := hc
  refine ⟨h1, h2, h3, h4, h5, ?_⟩
  rw [h6]
  apply List.map_congr_left
  intro i _
  apply List.map_congr_left
  intro j hj
  have := List.mem_range.mp hj
  by_cases hle : c.length ≤ n + j
  · rw [if_pos hle, if_pos hle, hx i _ (by omega)]
  · rw [if_neg hle, if_neg hle]

end Convolver

namespace Fx

variable {N : Platform} {sr mf : Nat}

/-- The processor of an effect after `n` frames of `x`. -/
def At (sr mf : Nat) (v : String → ℕ → ℝ) (x : ℕ → ℕ → ℝ) (n : ℕ) (fx : Fx) : FxKind → Prop
  | .gain _ => fx = .gain
  | .pan _ => fx = .pan
  | .biquad ch type => ∃ p, fx = .biquad p ∧ Biquad.AtTime type sr ch
      ⟨x, fun t => ⟨v "frequency" t, v "q" t, v "shelf-gain" t⟩, v "gain"⟩ n p
  | .oscillator _ _ _ => False
  | .convolution _ impulse => ∃ p, fx = .convolution p ∧ Convolver.AtTime impulse.channelCount
      impulse.sampleOrSilence impulse.frameCount x mf n p
  | .waveshaper _ curve => ∃ w, fx = .waveshaper w ∧ w.Ok sr mf ∧
      w.transfer = (List.range 511).map (fun i => some (Waveshaper.corners curve i))
  | .compressor ch => ∃ p, fx = .compressor p ∧ Compressor.AtTime ch sr mf (v "attack") (v "release") x n p

theorem At.agree {k : FxKind} {v v' : String → ℕ → ℝ} {x x' : ℕ → ℕ → ℝ} {n : ℕ} {fx : Fx} (h : At sr mf v x n fx k)
    (hx : ∀ c, ∀ i < n, x c i = x' c i) (hv : ∀ name, ∀ i < n, v name i = v' name i) : At sr mf v' x' n fx k := by
  cases k with
  | gain ch => exact h
  | pan ch => exact h
  | biquad ch type =>
    obtain ⟨p, h1, h2⟩ := h
    exact ⟨p, h1, h2.agree hx fun i hi => by simp only [hv _ i hi]⟩
  | oscillator f ch t => exact h
  | convolution n impulse =>
    obtain ⟨p, h1, h2⟩ := h
    exact ⟨p, h1, h2.agree hx⟩
  | waveshaper ch curve => exact h
  | compressor ch =>
    obtain ⟨p, h1, h2⟩ := h
    exact ⟨p, h1, h2.agree (hv _) (hv _) hx⟩

/-- Effects that are not oscillators never fail. -/
theorem at_runs (hz : ∀ x, N.isZero x = true → x = 0) (ho : ∀ x, N.isOne x = true → x = 1) (hsr : 0 < sr)
    (k : FxKind) (hk : k.Usable) (hn : k.NotOscillator) (v : String → ℕ → ℝ) (x : ℕ → ℕ → ℝ) :
    Runs N sr mf k.inputs k.outputs k.names v x (fun n fx => At sr mf v x n fx k) := by
  cases k with
  | gain ch => exact (gain_total hz ho ch).runs
  | pan ch => exact (pan_total ch hk).runs
  | biquad ch type => exact (biquad_total hz ho ch type).runs
  | oscillator f ch t => exact hn.elim
  | convolution n impulse =>
    obtain ⟨k1, rfl, k3⟩ := hk
    exact (convolution_total impulse.channelCount impulse.sampleOrSilence impulse.frameCount mf).runs
  | waveshaper ch curve =>
    intro n m t fx value input output hm hmf hi hv hb
    obtain ⟨fx', o, h1, h2, _⟩ := waveshaper_runs hsr ch curve n m t fx value input output hm hmf hi hv hb
    exact ⟨fx', o, h1, h2⟩
  | compressor ch =>
    intro n m t fx value input output hm hmf hi hv hb
    obtain ⟨fx', o, h1, h2, _⟩ := compressor_runs hz ho hsr ch n m t fx value input output hm hmf hi hv hb
    exact ⟨fx', o, h1, h2⟩

/-- The states of the nodes of a row that they can be rendered from. -/
def Sound (sr mf : Nat) (kinds : List (Id × FxKind)) (d : Dsp FxNode) : Prop :=
  ∃ k n v x, (d.id, k) ∈ kinds ∧ d.inputCount = k.inputs ∧ d.outputCount = k.outputs ∧ d.state.inputCount = k.inputs ∧
    d.state.outputCount = k.outputs ∧ (∀ name ∈ k.names, ∃ p, d.state.parameters.get? name = some p) ∧
    At sr mf v x n d.state.processor k

theorem sound_block (hz : ∀ x, N.isZero x = true → x = 0) (ho : ∀ x, N.isOne x = true → x = 1) (hsr : 0 < sr)
    {kinds : List (Id × FxKind)} (hk : ∀ i k, (i, k) ∈ kinds → k.Usable ∧ k.NotOscillator) {d : Dsp FxNode}
    (hd : Sound sr mf kinds d) {m : Nat} (hm : 0 < m) (hmf : m ≤ mf) (t : Int) (w : Nat → Nat → ℝ) :
    ∃ y s, (ops N).run d.state ⟨m, sr, t, window d.inputCount m w, window d.outputCount m silence⟩ = .ok (y, s) ∧
      Sound sr mf kinds { d with state := s } := by
  obtain ⟨k, n, v, x, h1, h2, h3, h4, h5, h6, h7⟩ := hd
  obtain ⟨u1, u2⟩ := hk _ _ h1
  obtain ⟨ps, hps⟩ : ∃ ps, ps = HMap.mapVals d.state.parameters fun p => p.process realArith t m sr := ⟨_, rfl⟩
  have hget : ∀ name ∈ k.names, ∃ p : RealtimeParameter ℝ, ps.get? name = some (p.process realArith t m sr) := by
    intro name hname
    obtain ⟨p, hp⟩ := h6 name hname
    exact ⟨p, by rw [hps, HMap.get?_mapVals, hp]; rfl⟩
  obtain ⟨v', hv'⟩ : ∃ v' : String → ℕ → ℝ, v' = fun name F => if F < n then v name F else
      match ps.get? name with
      | some p => p.1.getD (F - n) 0
      | none => 0 := ⟨_, rfl⟩
  obtain ⟨x', hx'⟩ : ∃ x' : ℕ → ℕ → ℝ, x' = fun c F => if F < n then x c F else w c (F - n) := ⟨_, rfl⟩
  have hat : At sr mf v' x' n d.state.processor k := h7.agree
    (fun c i hi => by rw [hx']; simp only; rw [if_pos hi]) (fun c i hi => by rw [hv']; simp only; rw [if_pos hi])
  obtain ⟨fx', o, e1, e2⟩ := at_runs (mf := mf) (sr := sr) hz ho hsr k u1 u2 v' x' n m t d.state.processor (values ps)
    (buffer d.state.inputCount m sr (window d.inputCount m w)) (buffer d.state.outputCount m sr (window d.outputCount m silence))
    hm hmf hat (by
      intro name hname
      obtain ⟨p, hp⟩ := hget name hname
      refine ⟨_, by simp only [values]; rw [hp], RealtimeParameter.process_length .., ?_⟩
      intro f hf
      rw [hv']
      simp only
      rw [if_neg (by omega), hp, Nat.add_sub_cancel_left]
      simp only
      rw [List.getD_eq_getElem?_getD,
        List.getElem?_eq_getElem (by rw [RealtimeParameter.process_length]; exact hf)]
      rfl)
    ⟨buffer_wf .., buffer_wf .., trivial, h4, h5, rfl, rfl, rfl, by
      intro c hc f hf
      rw [buffer_sample (by omega) hf, window, if_pos ⟨by omega, hf⟩, hx']
      simp only
      rw [if_neg (by omega), Nat.add_sub_cancel_left]
      rfl, by
      intro c hc f hf
      rw [buffer_sample (by omega) hf, window, if_pos ⟨by omega, hf⟩]
      rfl, by rw [h5]; exact ⟨_, rfl⟩⟩
  refine ⟨fun c f => (o.view c f).getD 0, { d.state with processor := fx', parameters := ps.mapVals Prod.snd }, ?_, ?_⟩
  · simp only [ops, run]
    rw [← hps, e1]
    rfl
  · refine ⟨k, n + m, v', x', h1, h2, h3, h4, h5, ?_, e2⟩
    intro name hname
    obtain ⟨p, hp⟩ := hget name hname
    exact ⟨_, by simp only; rw [HMap.get?_mapVals, hp]; rfl⟩

/-- A row of effects that are not oscillators renders all blocks. -/
theorem fx_healthy (hz : ∀ x, N.isZero x = true → x = 0) (ho : ∀ x, N.isOne x = true → x = 1) (hsr : 0 < sr)
    {kinds : List (Id × FxKind)} (hk : ∀ i k, (i, k) ∈ kinds → k.Usable ∧ k.NotOscillator) :
    Healthy (ops N) mf sr (Sound sr mf kinds) (fun i r => ∀ k, (i, k) ∈ kinds → r.name ∈ k.names) where
  run := by
    intro d n t x hd hn hnm
    obtain ⟨y, s, h, _⟩ := sound_block hz ho hsr hk hd hn hnm t x
    exact ⟨y, s, h⟩
  keeps := by
    intro d n t x y s hd hn hnm h
    obtain ⟨y', s', h1, h2⟩ := sound_block hz ho hsr hk hd hn hnm t x
    rw [h] at h1
    cases h1
    exact h2
  change := by
    rintro d r ⟨k, n, v, x, h1, h2, h3, h4, h5, h6, h7⟩ hr
    obtain ⟨p, hp⟩ := h6 _ (hr k h1)
    refine ⟨{ d.state with parameters := d.state.parameters.update r.name r.apply }, ?_, k, n, v, x, h1, h2, h3, h4, h5,
      ?_, h7⟩
    · simp only [ops, change, hp]
    · intro name hname
      obtain ⟨q, hq⟩ := h6 name hname
      simp only [HMap.get?_update]
      split
      · rw [hq]; exact ⟨_, rfl⟩
      · exact ⟨q, hq⟩

/-- New nodes. -/
theorem new_sound {kinds : List (Id × FxKind)} {i : Id} {k : FxKind} (hm : 0 < mf) (hsr : 0 < sr) (hmem : (i, k) ∈ kinds) (hk : k.Usable)
    (hn : k.NotOscillator) {d : Dsp FxNode} (hd : k.make sr mf i = .ok d) : Sound sr mf kinds d := by
  have hp : ∀ (l : List (String × ℝ)) (name : String), name ∈ l.map Prod.fst →
      ∃ p, (FxKind.parameters l).get? name = some p := by
    intro l name h
    induction l with
    | nil => simp at h
    | cons a l ih =>
      simp only [FxKind.parameters, List.map_cons, HMap.get?]
      split
      · exact ⟨_, rfl⟩
      · rename_i hne
        rw [List.map_cons, List.mem_cons] at h
        rcases h with h | h
        · exact absurd h.symm (by simpa using hne)
        · exact ih h
  cases k with
  | gain ch => cases hd; exact ⟨_, 0, fun _ _ => 0, fun _ _ => 0, hmem, rfl, rfl, rfl, rfl, fun n h => hp _ n (by simpa [FxKind.names] using h), rfl⟩
  | pan ch => cases hd; exact ⟨_, 0, fun _ _ => 0, fun _ _ => 0, hmem, rfl, rfl, rfl, rfl, fun n h => hp _ n (by simpa [FxKind.names] using h), rfl⟩
  | biquad ch type =>
    cases hd
    exact ⟨_, 0, fun _ _ => 0, fun _ _ => 0, hmem, rfl, rfl, rfl, rfl, fun n h => hp _ n (by simpa [FxKind.names] using h),
      _, rfl, Biquad.new_at_zero ..⟩
  | oscillator f ch t => exact hn.elim
  | convolution ch impulse =>
    obtain ⟨k1, rfl, k3⟩ := hk
    obtain ⟨p, p1, p2⟩ := Convolver.new_ok impulse k1 mf hm (Or.inl k3) impulse.sampleOrSilence (fun _ _ => 0) (by
      intro c hc f hf
      obtain ⟨u, hu⟩ := Buf.sample?_isSome impulse k1 c f hc hf
      rw [Buf.sampleOrSilence, hu]
      rfl)
    simp only [FxKind.make, p1, bind, Except.bind] at hd
    cases hd
    exact ⟨_, 0, fun _ _ => 0, fun _ _ => 0, hmem, rfl, rfl, rfl, rfl, fun n h => hp _ n (by simpa [FxKind.names] using h),
      _, rfl, p2⟩
  | waveshaper ch curve =>
    cases hd
    exact ⟨_, 0, fun _ _ => 0, fun _ _ => 0, hmem, rfl, rfl, rfl, rfl, fun n h => hp _ n (by simpa [FxKind.names] using h),
      _, rfl, Waveshaper.new_ok .., Waveshaper.new_transfer curve _ (fun _ => rfl) sr mf⟩
  | compressor ch =>
    cases hd
    exact ⟨_, 0, fun _ _ => 0, fun _ _ => 0, hmem, rfl, rfl, rfl, rfl, fun n h => hp _ n (by simpa [FxKind.names] using h),
      _, rfl, Compressor.new_at ch sr mf hsr _ _ _⟩

/-- All effects can be made. -/
theorem make_ok (hm : 0 < mf) (i : Id) (k : FxKind) (hk : k.Usable) :
    ∃ d, k.make sr mf i = .ok d ∧ d.id = i ∧ d.inputCount = k.inputs ∧ d.outputCount = k.outputs := by
  cases k with
  | gain ch => exact ⟨_, rfl, rfl, rfl, rfl⟩
  | pan ch => exact ⟨_, rfl, rfl, rfl, rfl⟩
  | biquad ch type => exact ⟨_, rfl, rfl, rfl, rfl⟩
  | oscillator f ch t => exact ⟨_, rfl, rfl, rfl, rfl⟩
  | convolution ch impulse =>
    obtain ⟨k1, rfl, k3⟩ := hk
    obtain ⟨p, p1, p2⟩ := Convolver.new_ok impulse k1 mf hm (Or.inl k3) impulse.sampleOrSilence (fun _ _ => 0) (by
      intro c hc f hf
      obtain ⟨u, hu⟩ := Buf.sample?_isSome impulse k1 c f hc hf
      rw [Buf.sampleOrSilence, hu]
      rfl)
    refine ⟨⟨i, impulse.channelCount, impulse.channelCount, ⟨impulse.channelCount, impulse.channelCount, .convolution p,
      FxKind.parameters [("wet", 1), ("dry", 0)]⟩⟩, ?_, rfl, rfl, rfl⟩
    simp only [FxKind.make, p1, bind, Except.bind]
    rfl
  | waveshaper ch curve => exact ⟨_, rfl, rfl, rfl, rfl⟩
  | compressor ch => exact ⟨_, rfl, rfl, rfl, rfl⟩

/-- What comes out of a row. -/
theorem row_heard (hz : ∀ x, N.isZero x = true → x = 0) (ho : ∀ x, N.isOne x = true → x = 1) (hsr : 0 < sr)
    (hm : 0 < mf) (es : List (ChainEvent ParameterRequest)) (hes : ∀ e ∈ es, (0 < e.frames ∧ e.frames ≤ mf) ∨ ∃ j r, e = .change j r)
    (kinds : List (Id × FxKind)) : ∀ (ds L : List (Dsp FxNode)) (x x' y : ℕ → ℕ → ℝ),
    (∀ q ∈ kinds, q.2.Usable) → SoundingThrough sr es kinds x' →
    List.Forall₂ (fun q d => q.2.make sr mf q.1 = .ok d) kinds ds →
    (∀ c F, F < ChainEvent.total es → x c F = x' c F) →
    chainRun (ops N) sr ds es x = .ok (y, L) →
    ∀ c F, F < ChainEvent.total es → y c F = heardThrough sr es kinds x' c F := by
  induction kinds with
  | nil =>
    intro ds L x x' y _ _ hd hx h c F hF
    cases hd
    rw [Chain.chainRun_nil es h c F hF, hx c F hF]
    rfl
  | cons q kinds ih =>
    intro ds L x x' y hk hs hd hx h
    cases hd with
    | @cons _ d _ ds h1 h2 =>
      obtain ⟨z, d', y', ds', g1, g2, _, g4⟩ := Chain.chainRun_split es h
      have hz' := node_heard hz ho hsr hm q.1 q.2 (hk q (by simp)) d h1 es hes
        (sounding_agree q.2 (fun c F hF => (hx c F hF).symm) hs.1) z _ g1
      intro c F hF
      rw [g4 c F hF]
      exact ih ds ds' z _ y' (fun r hr => hk r (by simp [hr])) hs.2 h2
        (fun c F hF => by rw [hz' c F hF]; exact heard_agree q.2 hx c F hF) g2 c F hF

end Fx
end Rawdio
