import Verif.Lemmas.HMap
import Verif.Lemmas.PoolBuf
import Verif.Spec.Accessors

/-! # Lemmas about parameter tables -/

namespace Rawdio

theorem mapM_check (options : List ParameterOption) :
    (∀ o ∈ options, o.range.Valid) → options.mapM ParameterOption.check = .ok options := by
  induction options with
  | nil => intro _; rfl
  | cons o os ih =>
    intro h
    rw [List.mapM_cons, ih (fun o ho => h o (List.mem_cons_of_mem _ ho))]
    have : o.check = .ok o := if_pos (h o List.mem_cons_self)
    rw [this]
    rfl

theorem mapM_check_panic (options : List ParameterOption) :
    (∃ o ∈ options, ¬ o.range.Valid) → options.mapM ParameterOption.check = .error .panic := by
  induction options with
  | nil => rintro ⟨o, h, _⟩; simp at h
  | cons o os ih =>
    intro h
    rw [List.mapM_cons]
    by_cases ho : o.range.Valid
    · have e : o.check = .ok o := if_pos ho
      have : ∃ o ∈ os, ¬ o.range.Valid := by
        obtain ⟨o', h1, h2⟩ := h
        rcases List.mem_cons.mp h1 with rfl | h1
        · exact absurd ho h2
        · exact ⟨o', h1, h2⟩
      rw [e, ih this]
      rfl
    · have e : o.check = .error .panic := if_neg ho
      rw [e]
      rfl

theorem foldl_addParameter_fst (dspId : Id) (options : List ParameterOption) (name : String) :
    ∀ t : Parameters × DspParameters, (options.map ParameterOption.name).Nodup →
    (∀ o ∈ options, o.name = name → (options.foldl (addParameter dspId) t).1.get? name = some ⟨dspId, name, o.range⟩) ∧
    (∀ o ∈ options, o.name = name → (options.foldl (addParameter dspId) t).2.get? name = some ⟨name, o.range.default⟩) ∧
    ((∀ o ∈ options, o.name ≠ name) → (options.foldl (addParameter dspId) t).1.get? name = t.1.get? name ∧
      (options.foldl (addParameter dspId) t).2.get? name = t.2.get? name) := by
  induction options with
  | nil => intro t _; simp
  | cons a os ih =>
    intro t hnd
    rw [List.map_cons, List.nodup_cons] at hnd
    obtain ⟨h1, h2, h3⟩ := ih (addParameter dspId t a) hnd.2
    rw [List.foldl_cons]
    have hhead : a.name = name → (∀ o ∈ os, o.name ≠ name) := by
      intro h o ho he
      exact hnd.1 (List.mem_map.mpr ⟨o, ho, he.trans h.symm⟩)
    refine ⟨?_, ?_, ?_⟩
    · intro o ho he
      rcases List.mem_cons.mp ho with rfl | ho
      · rw [(h3 (hhead he)).1]
        simp [addParameter, HMap.get?_insert, he]
      · exact h1 o ho he
    · intro o ho he
      rcases List.mem_cons.mp ho with rfl | ho
      · rw [(h3 (hhead he)).2]
        simp [addParameter, HMap.get?_insert, he]
      · exact h2 o ho he
    · intro h
      have ha := h a List.mem_cons_self
      obtain ⟨e1, e2⟩ := h3 (fun o ho => h o (List.mem_cons_of_mem _ ho))
      rw [e1, e2]
      simp [addParameter, HMap.get?_insert, Ne.symm ha]

theorem createParameters_ok (dspId : Id) (options : List ParameterOption) (hv : ∀ o ∈ options, o.range.Valid) :
    createParameters dspId options = .ok (options.foldl (addParameter dspId) ([], [])) := by
  unfold createParameters
  rw [mapM_check options hv]
  rfl

theorem createParameters_panic (dspId : Id) (options : List ParameterOption) (hv : ∃ o ∈ options, ¬ o.range.Valid) :
    createParameters dspId options = .error .panic := by
  unfold createParameters
  rw [mapM_check_panic options hv]
  rfl

namespace Effect

theorem real_valid (d lo hi : ℝ) : (real d lo hi).Valid ↔ lo ≤ hi ∧ lo ≤ d ∧ d ≤ hi := by
  simp [real, ParameterRange.Valid]

theorem unbounded_valid : unbounded.Valid := by simp [unbounded, ParameterRange.Valid]

theorem fromDb_100 : (Level.fromDb 100).linear = 10 ^ (5 : ℕ) := by
  rw [Level.fromDb, Level.minusInfinityDecibels, if_neg (by norm_num)]
  rw [show (100 : ℝ) / 20 = ((5 : ℕ) : ℝ) by norm_num, Real.rpow_natCast]

theorem fromDb_12 : 1 ≤ (Level.fromDb 12).linear := by
  rw [Level.fromDb, Level.minusInfinityDecibels, if_neg (by norm_num)]
  exact Real.one_le_rpow (by norm_num) (by norm_num)

theorem three_le_f64Max : 3 ≤ f64Max := by
  unfold f64Max
  have h1 : (4 : ℝ) ≤ 2 ^ 1023 := by
    calc (4 : ℝ) = 2 ^ 2 := by norm_num
      _ ≤ 2 ^ 1023 := pow_le_pow_right₀ (by norm_num) (by norm_num)
  have h2 : (1 : ℝ) / 2 ^ 52 ≤ 1 := by norm_num
  generalize (1 : ℝ) / 2 ^ 52 = a at *
  generalize (2 : ℝ) ^ 1023 = b at *
  nlinarith

/-- The table of the compressor, written out. -/
noncomputable def compressorOptions : List ParameterOption :=
  [⟨"attack", real 1 0 1000⟩, ⟨"release", real 10 0 10000⟩, ⟨"ratio", real 3 1 f64Max⟩,
    ⟨"threshold", real 0 (-128) 24⟩, ⟨"knee", real 0 0 24⟩,
    ⟨"wet", real Level.unity.linear Level.zero.linear (Level.fromDb 12).linear⟩,
    ⟨"dry", real Level.zero.linear Level.zero.linear (Level.fromDb 12).linear⟩]

theorem options_compressor : options compressor = .ok compressorOptions := rfl

theorem options_ok (e : Effect) : ∃ os, e.options = .ok os ∧ (os.map ParameterOption.name).Nodup ∧
    os.map ParameterOption.name = e.documented.map Prod.fst := by
  cases e
  all_goals first | exact ⟨_, rfl, by simp, by simp [documented]⟩ | exact ⟨_, options_compressor, by simp [compressorOptions], by simp [compressorOptions, documented]⟩

theorem options_valid (e : Effect) (h : e.Makeable) (os : List ParameterOption) (ho : e.options = .ok os) :
    ∀ o ∈ os, o.range.Valid := by
  have hsqrt : (1 : ℝ) ≤ √2 := by rw [Real.one_le_sqrt]; norm_num
  have hsqrt2 : √2 ≤ 2 := by rw [Real.sqrt_le_left (by norm_num)]; norm_num
  have h12 := fromDb_12
  have h3 := three_le_f64Max
  cases e with
  | gain =>
    rw [options, Except.ok.injEq] at ho; subst ho
    simpa using unbounded_valid
  | pan =>
    rw [options, Except.ok.injEq] at ho; subst ho
    simp only [List.mem_singleton, forall_eq, real_valid]
    norm_num
  | biquad =>
    rw [options, Except.ok.injEq] at ho; subst ho
    simp only [List.mem_cons, List.not_mem_nil, or_false, forall_eq_or_imp, forall_eq, real_valid, fromDb_100,
      Level.unity, Level.fromLinear]
    refine ⟨by norm_num, ⟨by norm_num, ?_, ?_⟩, by norm_num, by norm_num⟩
    · rw [div_le_div_iff₀ (by norm_num) (by linarith)]; linarith
    · rw [div_le_iff₀ (by linarith)]; linarith
  | compressor =>
    rw [options_compressor, Except.ok.injEq] at ho; subst ho
    simp only [compressorOptions, List.mem_cons, List.not_mem_nil, or_false, forall_eq_or_imp, forall_eq, real_valid,
      Level.unity, Level.zero, Level.fromLinear]
    refine ⟨by norm_num, by norm_num, ⟨by linarith, by norm_num, h3⟩, by norm_num, by norm_num, ⟨by linarith, by norm_num, h12⟩,
      by linarith, by norm_num, by linarith⟩
  | waveshaper =>
    rw [options, Except.ok.injEq] at ho; subst ho
    simp only [List.mem_cons, List.not_mem_nil, or_false, forall_eq_or_imp, forall_eq, real_valid]
    norm_num
  | convolution =>
    rw [options, Except.ok.injEq] at ho; subst ho
    simp only [List.mem_cons, List.not_mem_nil, or_false, forall_eq_or_imp, forall_eq, real_valid]
    norm_num
  | oscillator f =>
    rw [options, Except.ok.injEq] at ho; subst ho
    simp only [List.mem_cons, List.not_mem_nil, or_false, forall_eq_or_imp, forall_eq, real_valid]
    exact ⟨⟨by norm_num, h.1, h.2⟩, unbounded_valid⟩

end Effect
end Rawdio
