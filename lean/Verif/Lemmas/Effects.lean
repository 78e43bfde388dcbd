import Verif.Lemmas.Chain
import Verif.Lemmas.HMap
import Verif.Spec.Effects

/-! Helper lemmas: effects in an engine. -/

namespace Rawdio

namespace Chain

variable {S P C : Type} [Zero S]

theorem chainBlock_split {ops : NodeOps S P C} {sr n : Nat} {t : Int} {d : Dsp P} {ds L : List (Dsp P)}
    {x y : Nat → Nat → S} (h : chainBlock ops sr t n (d :: ds) x = .ok (y, L)) :
    ∃ z d' ds', chainBlock ops sr t n [d] x = .ok (z, [d']) ∧ chainBlock ops sr t n ds z = .ok (y, ds') ∧
      L = d' :: ds' := by
  rw [chainBlock] at h
  cases hr : ops.run d.state ⟨n, sr, t, window d.inputCount n x, window d.outputCount n silence⟩ with
  | error e => rw [hr] at h; cases h
  | ok r =>
    rw [hr] at h
    simp only [bind, Except.bind] at h
    cases hq : chainBlock ops sr t n ds (clip d.outputCount n r.1) with
    | error e => rw [hq] at h; cases h
    | ok q =>
      rw [hq] at h
      cases h
      refine ⟨_, { d with state := r.2 }, _, ?_, hq, rfl⟩
      rw [chainBlock, hr]
      rfl

theorem chainBlock_agree {ops : NodeOps S P C} {sr n : Nat} {t : Int} {ds L : List (Dsp P)}
    {x x' y : Nat → Nat → S} (hx : ∀ c f, f < n → x c f = x' c f) (h : chainBlock ops sr t n ds x = .ok (y, L)) :
    ∃ y', chainBlock ops sr t n ds x' = .ok (y', L) ∧ ∀ c f, f < n → y c f = y' c f := by
  cases ds with
  | nil => cases h; exact ⟨x', rfl, hx⟩
  | cons d ds =>
    refine ⟨y, ?_, fun _ _ _ => rfl⟩
    rw [← h, chainBlock, chainBlock]
    have : window d.inputCount n x' = window d.inputCount n x := by
      funext c f
      simp only [window]
      by_cases hc : c < d.inputCount ∧ f < n
      · rw [if_pos hc, if_pos hc, hx c f hc.2]
      · rw [if_neg hc, if_neg hc]
    rw [this]

omit [Zero S] in
theorem chainChange_split {ops : NodeOps S P C} {i : Id} {c : C} {d : Dsp P} {ds L : List (Dsp P)}
    (h : chainChange ops i c (d :: ds) = .ok L) :
    ∃ d' ds', chainChange ops i c [d] = .ok [d'] ∧ chainChange ops i c ds = .ok ds' ∧ L = d' :: ds' := by
  rw [chainChange, List.mapM_cons] at h
  simp only [bind, Except.bind] at h
  split at h
  · cases h
  · rename_i d' hd
    split at h
    · cases h
    · rename_i ds' hds
      cases h
      refine ⟨d', ds', ?_, hds, rfl⟩
      rw [chainChange, List.mapM_cons, List.mapM_nil]
      simp only [bind, Except.bind, hd]
      rfl

omit [Zero S] in
theorem later_followed (n : Nat) (x y : Nat → Nat → S) : later n (followed n x y) = y := by
  funext c f
  simp only [later, followed]
  rw [if_neg (by omega), Nat.add_sub_cancel_left]

/-- A row is its first node, then the rest. -/
theorem chainRun_split {ops : NodeOps S P C} {sr : Nat} (es : List (ChainEvent C)) :
    ∀ {d : Dsp P} {ds L : List (Dsp P)} {x y : Nat → Nat → S}, chainRun ops sr (d :: ds) es x = .ok (y, L) →
    ∃ z d' y' ds', chainRun ops sr [d] es x = .ok (z, [d']) ∧ chainRun ops sr ds es z = .ok (y', ds') ∧
      L = d' :: ds' ∧ ∀ c F, F < ChainEvent.total es → y c F = y' c F := by
  induction es with
  | nil =>
    intro d ds L x y h
    cases h
    exact ⟨_, d, _, ds, rfl, rfl, rfl, fun c F hF => by simp [ChainEvent.total] at hF⟩
  | cons e es ih =>
    intro d ds L x y h
    cases e with
    | change i c =>
      rw [chainRun] at h
      cases hc : chainChange ops i c (d :: ds) with
      | error e => rw [hc] at h; cases h
      | ok L1 =>
        rw [hc] at h
        obtain ⟨d1, ds1, h1, h2, rfl⟩ := chainChange_split hc
        obtain ⟨z, d', y', ds', g1, g2, g3, g4⟩ := ih h
        refine ⟨z, d', y', ds', ?_, ?_, g3, fun c F hF => g4 c F (by
          simpa [ChainEvent.total, ChainEvent.frames] using hF)⟩
        · rw [chainRun, h1]; exact g1
        · rw [chainRun, h2]; exact g2
    | block t n =>
      rw [chainRun] at h
      cases hb : chainBlock ops sr t n (d :: ds) x with
      | error e => rw [hb] at h; cases h
      | ok q =>
        rw [hb] at h
        simp only [bind, Except.bind] at h
        cases hr : chainRun ops sr q.2 es (later n x) with
        | error e => rw [hr] at h; cases h
        | ok r =>
          rw [hr] at h
          cases h
          obtain ⟨z1, d1, ds1, h1, h2, h3⟩ := chainBlock_split (y := q.1) (L := q.2) hb
          rw [h3] at hr
          obtain ⟨z2, d', y2, ds', g1, g2, g3, g4⟩ := ih hr
          obtain ⟨y1, k1, k2⟩ := chainBlock_agree (x' := followed n z1 z2)
            (fun c f hf => by simp only [followed]; rw [if_pos hf]) h2
          refine ⟨followed n z1 z2, d', followed n y1 y2, ds', ?_, ?_, g3, ?_⟩
          · rw [chainRun, h1]
            simp only [bind, Except.bind]
            rw [g1]
            rfl
          · rw [chainRun, k1]
            simp only [bind, Except.bind]
            rw [later_followed, g2]
            rfl
          · intro c F hF
            simp only [followed]
            by_cases hn : F < n
            · rw [if_pos hn, if_pos hn, k2 c F hn]
            · rw [if_neg hn, if_neg hn]
              have ht : ChainEvent.total (.block t n :: es) = n + ChainEvent.total es := by
                simp [ChainEvent.total, ChainEvent.frames]
              exact g4 c _ (by omega)

/-- Nothing in a row: the signal goes through. -/
theorem chainRun_nil {ops : NodeOps S P C} {sr : Nat} (es : List (ChainEvent C)) :
    ∀ {L : List (Dsp P)} {x y : Nat → Nat → S}, chainRun ops sr [] es x = .ok (y, L) →
    ∀ c F, F < ChainEvent.total es → y c F = x c F := by
  induction es with
  | nil => intro L x y _ c F hF; simp [ChainEvent.total] at hF
  | cons e es ih =>
    intro L x y h c F hF
    cases e with
    | change i r => exact ih (by simpa [chainRun, chainChange] using h) c F (by
        simpa [ChainEvent.total, ChainEvent.frames] using hF)
    | block t n =>
      rw [chainRun, chainBlock] at h
      simp only [bind, Except.bind] at h
      cases hr : chainRun ops sr [] es (later n x) with
      | error e => rw [hr] at h; cases h
      | ok r =>
        rw [hr] at h
        cases h
        simp only [followed]
        by_cases hn : F < n
        · rw [if_pos hn]
        · have ht : ChainEvent.total (.block t n :: es) = n + ChainEvent.total es := by
            simp [ChainEvent.total, ChainEvent.frames]
          rw [if_neg hn, ih (y := r.1) (L := r.2) hr c _ (by omega), later, Nat.add_sub_cancel' (by omega)]

end Chain

namespace Fx

/-! ## Buffers -/

theorem buffer_wf (channels frames sr : Nat) (x : Nat → Nat → Option ℝ) : (buffer channels frames sr x).WF := by
  simp [buffer, Buf.WF]

theorem buffer_sample {channels frames sr : Nat} {x : Nat → Nat → Option ℝ} {c f : Nat} (hc : c < channels)
    (hf : f < frames) : (buffer channels frames sr x).sample? c f = some ((x c f).getD 0) := by
  have h1 : c * frames + f < channels * frames := by
    have := Nat.mul_le_mul_right frames (Nat.succ_le_of_lt hc)
    rw [Nat.succ_mul] at this
    omega
  have h2 : (c * frames + f) / frames = c := by
    rw [Nat.mul_comm, Nat.mul_add_div (by omega), Nat.div_eq_of_lt hf, Nat.add_zero]
  have h3 : (c * frames + f) % frames = f := by
    rw [Nat.mul_comm, Nat.mul_add_mod, Nat.mod_eq_of_lt hf]
  rw [buffer, Buf.sample?, if_pos ⟨hc, hf⟩, List.getElem?_map, List.getElem?_range h1, Option.map_some, h2, h3]

/-- A node sees what was written, if everything was. -/
theorem view_written {channels frames sr : Nat} {x : Nat → Nat → Option ℝ} {o : Buf ℝ} {y : Nat → Nat → ℝ}
    (hs : (buffer channels frames sr x).SameShape o)
    (hy : ∀ c < channels, ∀ f < frames, o.sample? c f = some (y c f)) {c f : Nat} (hc : c < channels) (hf : f < frames) :
    (o.view c f).getD 0 = y c f := by
  cases o with
  | slice p r m => exact hs.elim
  | owned data cc fc r =>
    obtain ⟨rfl, rfl, rfl⟩ := hs
    have h1 := hy c hc (frames - 1) (by omega)
    have h2 := hy c hc f hf
    rw [Buf.sample?, if_pos ⟨hc, by omega⟩] at h1
    rw [Buf.sample?, if_pos ⟨hc, hf⟩] at h2
    obtain ⟨h3, -⟩ := List.getElem?_eq_some_iff.mp h1
    obtain ⟨h4, h5⟩ := List.getElem?_eq_some_iff.mp h2
    rw [Buf.view, if_pos (by exact ⟨hc, hf⟩), Buf.getSample, Buf.channelData,
      sliceRange_ok (by simp only; rw [Nat.succ_mul]; omega) (by simp only; rw [Nat.succ_mul]; omega)]
    simp only [bind, Except.bind]
    rw [List.drop_eq_getElem_cons h4, h5]
    obtain ⟨m, hm⟩ : ∃ m, (c + 1) * frames - (c * frames + f) = m + 1 :=
      ⟨(c + 1) * frames - (c * frames + f) - 1, by rw [Nat.succ_mul]; omega⟩
    rw [hm, List.take_succ_cons]
    rfl

/-! ## One effect -/

/-- A list of values of a signal from frame `n` on. -/
def Shows (l : List ℝ) (v : ℕ → ℝ) (n m : Nat) : Prop := l.length = m ∧ ∀ f < m, l[f]? = some (v (n + f))

/-- The buffers of a block from frame `n` on. -/
structure Frames (sr inputs outputs : Nat) (x : ℕ → ℕ → ℝ) (n m : Nat) (input output : Buf ℝ) : Prop where
  inWF : input.WF
  outWF : output.WF
  writable : output.Writable
  inChannels : input.channelCount = inputs
  outChannels : output.channelCount = outputs
  inFrames : input.frameCount = m
  outFrames : output.frameCount = m
  rate : output.sampleRate = sr
  samples : ∀ c < inputs, ∀ f < m, input.sample? c f = some (x c (n + f))
  silent : ∀ c < outputs, ∀ f < m, output.sample? c f = some 0
  plain : ∃ data, output = .owned data outputs m sr

/-- Block after block, the processor makes `y` of `x`. -/
def Steps (N : Platform) (sr mf inputs outputs : Nat) (names : List String) (v : String → ℕ → ℝ) (x y : ℕ → ℕ → ℝ)
    (total : Nat) (Inv : ℕ → Fx → Prop) : Prop :=
  ∀ n m t fx value input output fx' o, 0 < m → m ≤ mf → n + m ≤ total → Inv n fx →
    (∀ name ∈ names, ∃ l, value name = .ok l ∧ Shows l (v name) n m) → Frames sr inputs outputs x n m input output →
    processAudio N t value input output fx = .ok (fx', o) →
    Inv (n + m) fx' ∧ output.SameShape o ∧ ∀ c < outputs, ∀ f < m, o.sample? c f = some (y c (n + f))

/-- Block after block, the processor makes `y` of `x`, and never fails. -/
def Total (N : Platform) (sr mf inputs outputs : Nat) (names : List String) (v : String → ℕ → ℝ) (x y : ℕ → ℕ → ℝ)
    (Inv : ℕ → Fx → Prop) : Prop :=
  ∀ n m t fx value input output, 0 < m → m ≤ mf → Inv n fx →
    (∀ name ∈ names, ∃ l, value name = .ok l ∧ Shows l (v name) n m) → Frames sr inputs outputs x n m input output →
    ∃ fx' o, processAudio N t value input output fx = .ok (fx', o) ∧
    Inv (n + m) fx' ∧ output.SameShape o ∧ ∀ c < outputs, ∀ f < m, o.sample? c f = some (y c (n + f))

/-- Block after block, the processor never fails. -/
def Runs (N : Platform) (sr mf inputs outputs : Nat) (names : List String) (v : String → ℕ → ℝ) (x : ℕ → ℕ → ℝ)
    (Inv : ℕ → Fx → Prop) : Prop :=
  ∀ n m t fx value input output, 0 < m → m ≤ mf → Inv n fx →
    (∀ name ∈ names, ∃ l, value name = .ok l ∧ Shows l (v name) n m) → Frames sr inputs outputs x n m input output →
    ∃ fx' o, processAudio N t value input output fx = .ok (fx', o) ∧ Inv (n + m) fx'

theorem Total.runs {N : Platform} {sr mf inputs outputs : Nat} {names : List String} {v : String → ℕ → ℝ}
    {x y : ℕ → ℕ → ℝ} {Inv : ℕ → Fx → Prop} (h : Total N sr mf inputs outputs names v x y Inv) :
    Runs N sr mf inputs outputs names v x Inv := by
  intro n m t fx value input output hm hmf hi hv hb
  obtain ⟨fx', o, h1, h2, _⟩ := h n m t fx value input output hm hmf hi hv hb
  exact ⟨fx', o, h1, h2⟩

theorem Total.steps {N : Platform} {sr mf inputs outputs : Nat} {names : List String} {v : String → ℕ → ℝ}
    {x y : ℕ → ℕ → ℝ} {Inv : ℕ → Fx → Prop} (h : Total N sr mf inputs outputs names v x y Inv) (total : Nat) :
    Steps N sr mf inputs outputs names v x y total Inv := by
  intro n m t fx value input output fx' o hm hmf _ hi hv hb hr
  obtain ⟨fx1, o1, h1, h2⟩ := h n m t fx value input output hm hmf hi hv hb
  rw [h1] at hr
  cases hr
  exact h2

theorem track_length (sr : Nat) (i : Id) (name : String) (es : List (ChainEvent ParameterRequest)) :
    ∀ p, (parameterTrack sr i name p es).length = ChainEvent.total es := by
  induction es with
  | nil => intro p; rfl
  | cons e es ih =>
    intro p
    cases e with
    | change j r => rw [parameterTrack, ih]; simp [ChainEvent.total, ChainEvent.frames]
    | block t n =>
      rw [parameterTrack, List.length_append, ih, RealtimeParameter.process_length]
      simp [ChainEvent.total, ChainEvent.frames]

/-- The parameters give the values of the signals from frame `n` on. -/
def Gives (sr : Nat) (i : Id) (names : List String) (v : String → ℕ → ℝ) (n : Nat)
    (es : List (ChainEvent ParameterRequest)) (ps : HMap String (RealtimeParameter ℝ)) : Prop :=
  ∀ name ∈ names, ∃ p, ps.get? name = some p ∧ Shows (parameterTrack sr i name p es) (v name) n (ChainEvent.total es)

theorem run_single {N : Platform} {sr mf inputs outputs : Nat} {names : List String} {v : String → ℕ → ℝ}
    {x y : ℕ → ℕ → ℝ} {total : Nat} {Inv : ℕ → Fx → Prop} (hS : Steps N sr mf inputs outputs names v x y total Inv)
    (i : Id) (es : List (ChainEvent ParameterRequest)) :
    ∀ (n : Nat) (s : FxNode) (z : ℕ → ℕ → ℝ) (L : List (Dsp FxNode)), s.inputCount = inputs → s.outputCount = outputs →
    (∀ e ∈ es, (0 < e.frames ∧ e.frames ≤ mf) ∨ ∃ j r, e = .change j r) → n + ChainEvent.total es = total → Inv n s.processor →
    Gives sr i names v n es s.parameters →
    chainRun (ops N) sr [⟨i, inputs, outputs, s⟩] es (later n x) = .ok (z, L) →
    ∀ c F, F < ChainEvent.total es → z c F = if c < outputs then y c (n + F) else 0 := by
  induction es with
  | nil => intro n s z L _ _ _ _ _ _ _ c F hF; simp [ChainEvent.total] at hF
  | cons e es ih =>
    intro n s z L h1 h2 hes hn hi hg h c F hF
    cases e with
    | change j r =>
      have ht : ChainEvent.total (.change j r :: es) = ChainEvent.total es := by
        simp [ChainEvent.total, ChainEvent.frames]
      rw [ht] at hF hn
      rw [chainRun] at h
      by_cases hij : i = j
      · subst hij
        cases hp : s.parameters.get? r.name with
        | none =>
          have : chainChange (ops N) i r [⟨i, inputs, outputs, s⟩] = .error .panic := by
            simp [chainChange, ops, change, hp, bind, Except.bind]
          rw [this] at h
          cases h
        | some p0 =>
          have : chainChange (ops N) i r [⟨i, inputs, outputs, s⟩] = .ok [⟨i, inputs, outputs,
              { s with parameters := s.parameters.update r.name r.apply }⟩] := by
            simp [chainChange, ops, change, hp, bind, Except.bind]
            rfl
          rw [this] at h
          refine ih n { s with parameters := s.parameters.update r.name r.apply } z L h1 h2
            (fun e he => hes e (by simp [he])) hn hi ?_ h c F hF
          intro name hname
          obtain ⟨p, p1, p2⟩ := hg name hname
          rw [HMap.get?_update, p1]
          rw [parameterTrack, ht] at p2
          by_cases hnm : r.name = name
          · refine ⟨r.apply p, by simp [hnm], ?_⟩
            rwa [if_pos ⟨rfl, hnm⟩] at p2
          · refine ⟨p, by simp [Ne.symm hnm], ?_⟩
            rwa [if_neg (fun h => hnm h.2)] at p2
      · have : chainChange (ops N) j r [⟨i, inputs, outputs, s⟩] = .ok [⟨i, inputs, outputs, s⟩] := by
          simp [chainChange, hij, pure, Except.pure]
          rfl
        rw [this] at h
        refine ih n _ z L h1 h2 (fun e he => hes e (by simp [he])) hn hi ?_ h c F hF
        intro name hname
        obtain ⟨p, p1, p2⟩ := hg name hname
        rw [parameterTrack, ht, if_neg (fun h => hij h.1.symm)] at p2
        exact ⟨p, p1, p2⟩
    | block t m =>
      have ht : ChainEvent.total (.block t m :: es) = m + ChainEvent.total es := by
        simp [ChainEvent.total, ChainEvent.frames]
      rw [ht] at hF hn
      have hm : 0 < m ∧ m ≤ mf := by
        rcases hes _ List.mem_cons_self with h | ⟨_, _, h⟩
        · exact h
        · cases h
      rw [chainRun, chainBlock] at h
      simp only at h
      cases hr : (ops N).run s ⟨m, sr, t, window inputs m (later n x), window outputs m silence⟩ with
      | error e => rw [hr] at h; cases h
      | ok q =>
        rw [hr] at h
        simp only [bind, Except.bind, chainBlock] at h
        cases hq : chainRun (ops N) sr [⟨i, inputs, outputs, q.2⟩] es (later m (later n x)) with
        | error e =>
          simp only [pure, Except.pure] at h
          rw [hq] at h; cases h
        | ok w =>
          simp only [pure, Except.pure] at h
          rw [hq] at h
          cases h
          simp only [ops, run] at hr
          obtain ⟨ps, hps⟩ : ∃ ps, ps = HMap.mapVals s.parameters fun p => p.process realArith t m sr := ⟨_, rfl⟩
          rw [← hps, h1, h2] at hr
          cases hpr : processAudio N t (values ps) (buffer inputs m sr (window inputs m (later n x)))
              (buffer outputs m sr (window outputs m silence)) s.processor with
          | error e => rw [hpr] at hr; cases hr
          | ok u =>
            rw [hpr] at hr
            cases hr
            have hps' : ∀ name ∈ names, ∃ p, s.parameters.get? name = some p ∧
                ps.get? name = some (p.process realArith t m sr) ∧
                Shows (p.process realArith t m sr).1 (v name) n m ∧
                Shows (parameterTrack sr i name (p.process realArith t m sr).2 es) (v name) (n + m)
                  (ChainEvent.total es) := by
              intro name hname
              obtain ⟨p, p1, p2, p3⟩ := hg name hname
              rw [parameterTrack, ht] at p3
              have hl := RealtimeParameter.process_length realArith p t m sr
              refine ⟨p, p1, by rw [hps, HMap.get?_mapVals, p1]; rfl, ⟨hl, ?_⟩, track_length .., ?_⟩
              · intro f hf
                rw [← p3 f (by omega), List.getElem?_append_left (by omega)]
              · intro f hf
                rw [Nat.add_assoc, ← p3 (m + f) (by omega), List.getElem?_append_right (by omega), hl,
                  Nat.add_sub_cancel_left]
            obtain ⟨k1, k2, k3⟩ := hS n m t s.processor (values ps) _ _ u.1 u.2 hm.1 hm.2 (by omega) hi
              (by
                intro name hname
                obtain ⟨p, _, p2, p3, _⟩ := hps' name hname
                exact ⟨_, by simp only [values]; rw [p2], p3⟩)
              ⟨buffer_wf .., buffer_wf .., trivial, rfl, rfl, rfl, rfl, rfl, by
                intro c hc f hf
                rw [buffer_sample hc hf, window, if_pos ⟨hc, hf⟩]
                rfl, by
                intro c hc f hf
                rw [buffer_sample hc hf, window, if_pos ⟨hc, hf⟩]
                rfl, ⟨_, rfl⟩⟩ hpr
            have hlater : later m (later n x) = later (n + m) x := by
              funext c f; simp only [later, Nat.add_assoc]
            rw [hlater] at hq
            have hrest := ih (n + m) ⟨inputs, outputs, u.1, ps.mapVals Prod.snd⟩ w.1 w.2 rfl rfl (fun e he => hes e (by simp [he])) (by omega) k1 (by
              intro name hname
              obtain ⟨p, _, p2, _, p4⟩ := hps' name hname
              exact ⟨_, by rw [HMap.get?_mapVals, p2]; rfl, p4⟩) hq c
            simp only [followed]
            by_cases hFm : F < m
            · rw [if_pos hFm, clip]
              by_cases hc : c < outputs
              · rw [if_pos ⟨hc, hFm⟩, if_pos hc]
                exact view_written k2 k3 hc hFm
              · rw [if_neg (fun h => hc h.1), if_neg hc]
            · rw [if_neg hFm, hrest (F - m) (by omega), Nat.add_assoc, Nat.add_sub_cancel' (by omega)]

end Fx
end Rawdio
