import Verif.Lemmas.EffectRun
import Verif.Lemmas.EffectCancel
import Verif.Lemmas.SamplerNode
import Verif.Props.Chain

/-!
# Effects in an engine (C83)
-/

namespace Rawdio
namespace Fx

open Processor

variable {N : Platform}

theorem forall_of_mapM {sr mf : Nat} : ∀ (kinds : List (Id × FxKind)) (ds : List (Dsp FxNode)),
    kinds.mapM (fun q => q.2.make sr mf q.1) = .ok ds → List.Forall₂ (fun q d => q.2.make sr mf q.1 = .ok d) kinds ds := by
  intro kinds
  induction kinds with
  | nil => intro ds h; cases h; exact .nil
  | cons q kinds ih =>
    intro ds h
    rw [List.mapM_cons] at h
    cases hq : q.2.make sr mf q.1 with
    | error e => rw [hq] at h; cases h
    | ok d =>
      rw [hq] at h
      cases hr : kinds.mapM (fun q => q.2.make sr mf q.1) with
      | error e => simp only [hr, bind, Except.bind] at h; cases h
      | ok es =>
        simp only [hr, bind, Except.bind] at h
        cases h
        exact .cons hq (ih es hr)

/-- C83: whatever is requested of the parameters and when, and however the frames are divided into process calls: what
leaves the engine is what went in, through each of the effects from its first frame on, with the values that its
parameters have at each frame. The frequencies of oscillators are above 0, the overdrive of waveshapers is not negative,
and compressors do not divide 0 by 0 (`FxKind.Sounding`). -/
theorem C83_stream (hz : ∀ x, N.isZero x = true → x = 0) (ho : ∀ x, N.isOne x = true → x = 1) (fromInput : Bool)
    (kinds : List (Id × FxKind)) (hne : kinds ≠ []) (hk : ∀ q ∈ kinds, q.2.Usable) (mf mc sr : Nat) (hm : 0 < mf)
    (hsr : 0 < sr) (ds : List (Dsp FxNode)) (hds : kinds.mapM (fun q => q.2.make sr mf q.1) = .ok ds)
    (changes : Nat → List (Id × ParameterRequest)) (ks : List (Call ℝ FxNode ParameterRequest))
    (k : Call ℝ FxNode ParameterRequest) (hks : ∀ l ∈ ks ++ [k], l.Valid)
    (hp : PlaysChain fromInput ds changes (ks ++ [k])) (E E' : Processor ℝ FxNode)
    (hE : calls (ops N) (new sr mc mf) ks = .ok E) (o : Buf ℝ)
    (h : E.process (ops N) k.env k.commands k.input k.output = .ok (o, E')) :
    ∃ es, ChainHistory mf sr changes (ks ++ [k]) es ∧
      (SoundingThrough sr es kinds (sessionInput fromInput mc (ks ++ [k])) →
        ∀ c f, c < k.output.channelCount → f < k.output.frameCount → o.sample? c f = some (if c < mc then
          heardThrough sr es kinds (sessionInput fromInput mc (ks ++ [k])) c (framesIn ks + f) else 0)) := by
  have hall := forall_of_mapM kinds ds hds
  have hne' : ds ≠ [] := by
    rintro rfl
    cases hall
    exact hne rfl
  obtain ⟨es, y, ds', a1, a2, a3⟩ := Chain.C81_stream (ops N) fromInput ds hne' mf mc sr hm changes ks k hks hp E E' hE o h
  refine ⟨es, a1, ?_⟩
  intro hs c f hc hf
  have ht := Chain.history_total a1
  rw [Gain.framesIn_append] at ht
  have hes : ∀ e ∈ es, (0 < e.frames ∧ e.frames ≤ mf) ∨ ∃ j r, e = .change j r := by
    intro e he
    have := Sampler.history_events hm a1 e he
    cases e with
    | change i c => exact Or.inr ⟨i, c, rfl⟩
    | block t n => exact Or.inl this
  rw [a3 c f hc hf, row_heard hz ho hsr hm es hes kinds ds ds' _ _ y hk hs hall
    (fun _ _ _ => rfl) a2 c _ (by omega)]

/-- C83: all process calls of such a session return, if no effect is an oscillator (C46), and requests name parameters
that their node has. -/
theorem C83_runs (hz : ∀ x, N.isZero x = true → x = 0) (ho : ∀ x, N.isOne x = true → x = 1) (fromInput : Bool)
    (kinds : List (Id × FxKind)) (hne : kinds ≠ []) (hk : ∀ q ∈ kinds, q.2.Usable ∧ q.2.NotOscillator) (mf mc sr : Nat)
    (hm : 0 < mf) (hsr : 0 < sr) (hmc : ∀ q ∈ kinds, q.2.inputs ≤ mc ∧ q.2.outputs ≤ mc) (hn : (kinds.map Prod.fst).Nodup)
    (hl : kinds.length ≤ 1022) (changes : Nat → List (Id × ParameterRequest))
    (hch : ∀ i, ∀ x ∈ changes i, ∃ k, (x.1, k) ∈ kinds ∧ x.2.name ∈ k.names) :
    ∃ ds, kinds.mapM (fun q => q.2.make sr mf q.1) = .ok ds ∧
      ∀ ks : List (Call ℝ FxNode ParameterRequest), (∀ l ∈ ks, l.Valid) → PlaysChain fromInput ds changes ks →
        ∃ E, calls (ops N) (new sr mc mf) ks = .ok E := by
  have hmake : ∀ kinds : List (Id × FxKind), (∀ q ∈ kinds, q.2.Usable) →
      ∃ ds, kinds.mapM (fun q => q.2.make sr mf q.1) = .ok ds ∧ List.Forall₂ (fun q (d : Dsp FxNode) =>
        d.id = q.1 ∧ d.inputCount = q.2.inputs ∧ d.outputCount = q.2.outputs) kinds ds := by
    intro kinds
    induction kinds with
    | nil => intro _; exact ⟨[], rfl, .nil⟩
    | cons q kinds ih =>
      intro hk
      obtain ⟨ds, h1, h2⟩ := ih fun r hr => hk r (by simp [hr])
      obtain ⟨d, d1, d2⟩ := make_ok (sr := sr) hm q.1 q.2 (hk q (by simp))
      refine ⟨d :: ds, ?_, .cons d2 h2⟩
      rw [List.mapM_cons, d1]
      simp only [bind, Except.bind, h1]
      rfl
  obtain ⟨ds, h1, h2⟩ := hmake kinds fun q hq => (hk q hq).1
  refine ⟨ds, h1, ?_⟩
  intro ks hks hp
  have h3 := forall_of_mapM kinds ds h1
  have hids : ds.map Dsp.id = kinds.map Prod.fst := by
    clear hne hk hmc hn hl hch h1 h3 hp
    induction h2 with
    | nil => rfl
    | cons a _ ih => rw [List.map_cons, List.map_cons, a.1, ih]
  have hlen := h2.length_eq
  have hpair : ∀ d ∈ ds, ∃ q ∈ kinds, q.2.make sr mf q.1 = .ok d ∧ d.inputCount = q.2.inputs ∧
      d.outputCount = q.2.outputs := by
    intro d hd
    obtain ⟨i, hi, rfl⟩ := List.mem_iff_getElem.mp hd
    have hi' : i < kinds.length := by omega
    exact ⟨kinds[i], List.getElem_mem hi', (List.forall₂_iff_get.mp h3).2 i hi' hi,
      ((List.forall₂_iff_get.mp h2).2 i hi' hi).2⟩
  refine Chain.C81_runs (ops N) mf mc sr hm _ _ (fx_healthy hz ho hsr fun i k h => hk _ h) fromInput ds ?_ ?_ ?_ ?_ ?_
    changes ?_ ks hks hp
  · rintro rfl
    cases h2
    exact hne rfl
  · intro d hd
    obtain ⟨q, hq, q1, _⟩ := hpair d hd
    exact new_sound hm hsr hq (hk q hq).1 (hk q hq).2 q1
  · intro d hd
    obtain ⟨q, hq, _, q2, q3⟩ := hpair d hd
    rw [q2, q3]
    exact hmc q hq
  · rw [hids]; exact hn
  · omega
  · intro i x hx
    obtain ⟨k, k1, k2⟩ := hch i x hx
    refine ⟨by rw [hids]; exact List.mem_map.mpr ⟨_, k1, rfl⟩, ?_⟩
    intro k' hk'
    have := List.inj_on_of_nodup_map hn k1 hk' rfl
    cases this
    exact k2

/-- C83: a parameter of which nothing is requested has the value that the documentation gives, whatever is requested of
others. -/
theorem C83_untouched (k : FxKind) (i : Id) (name : String) (mf sr : Nat)
    (changes : Nat → List (Id × ParameterRequest)) (hno : ∀ j, ∀ x ∈ changes j, ¬ (x.1 = i ∧ x.2.name = name))
    (ks : List (Call ℝ FxNode ParameterRequest)) (es : List (ChainEvent ParameterRequest))
    (h : ChainHistory mf sr changes ks es) (F : Nat) (hF : F < framesIn ks) :
    k.track sr es i name F = k.default name := by
  obtain ⟨hist, h1, h2, _⟩ := track_values i name (.new realArith (k.default name)) (own := fun _ => []) (by
    intro j
    rw [List.filter_eq_nil_iff.mpr (by simpa using hno j)]
    rfl) h
  have hq : ∀ x ∈ hist, x.1 = [] := by
    intro x hx
    obtain ⟨j, hj⟩ := List.mem_iff_getElem?.mp hx
    have hl : j < ks.length := by
      rw [← h1.1]; by_contra hn; rw [List.getElem?_eq_none (by omega)] at hj; cases hj
    exact (h1.2 j _ x (List.getElem?_eq_getElem hl) hj).1
  have hl := Gain.gainValues_length sr hist (.new realArith (k.default name))
  rw [Gain.history_frames ks h1] at hl
  rw [FxKind.track, h2, List.getD_eq_getElem?_getD, List.getElem?_eq_getElem (by omega), Option.getD_some]
  have := Gain.gainValues_quiet sr hist (.new realArith (k.default name)) hq
  have hall := (Gain.processAll_new (k.default name) sr (hist.flatMap Prod.snd)).2
  rw [← this] at hall
  exact hall _ (List.getElem_mem _)

/-- C83: a parameter of which one immediate change, to `v` at time `e`, is requested before call `n`: frames of the calls
before, and frames more than 1.5 units of 2⁻³² s before the time, have the value of the documentation; frames after
the request, 1.5 units after its time or later, have the value `v`.  Missing for the full claim: frames within 1.5 units of the
time, see `C80_on_frame_violated`. -/
theorem C83_set_partial (k : FxKind) (i : Id) (name : String) (mf sr : Nat) (hsr : 0 < sr) (hle : sr ≤ 2 ^ 30)
    (changes : Nat → List (Id × ParameterRequest)) (n : Nat) (v : ℝ) (e : Int)
    (hown : ∀ j, (changes j).filter (fun x => x.1 = i ∧ x.2.name = name) =
      if j = n then [(i, ParameterRequest.change name ⟨v, e, .immediate⟩)] else [])
    (ks : List (Call ℝ FxNode ParameterRequest)) (es : List (ChainEvent ParameterRequest))
    (h : ChainHistory mf sr changes ks es) (F : Nat) (hF : F < framesIn ks) :
    ((F < framesIn (ks.take n) ∨ ks.length ≤ n ∨ (F : ℚ) / sr * 2 ^ 32 + 3 / 2 < e) →
      k.track sr es i name F = k.default name) ∧
    (framesIn (ks.take n) ≤ F → n < ks.length → (e : ℚ) + 3 / 2 ≤ (F : ℚ) / sr * 2 ^ 32 →
      k.track sr es i name F = v) := by
  obtain ⟨hist, h1, h2, _⟩ := track_values i name (.new realArith (k.default name))
    (own := onlyAt n ⟨v, e, .immediate⟩) (by
      intro j
      rw [hown j, onlyAt]
      split <;> rfl) h
  obtain ⟨t, t1, t2⟩ := Gain.one_change_values (k.default name) hsr hle h1 hF
  have ht := abs_le.mp (Gain.history_times hsr (by omega) _ h1 t1).2
  have h1' : Timestamp.one = 2 ^ 32 := by norm_num [Timestamp.one]
  rw [h1'] at ht
  rw [FxKind.track, h2, t2]
  constructor
  · intro hb
    rw [if_neg]
    rintro ⟨a1, a2, a3⟩
    have a3' : (e : ℚ) ≤ t := by exact_mod_cast a3
    rcases hb with hb | hb | hb
    · omega
    · omega
    · linarith [ht.2]
  · intro h3 h4 he
    have hte : (e : ℚ) ≤ t := by linarith [ht.1]
    rw [if_pos ⟨h3, h4, by exact_mod_cast hte⟩]

/-- C83: a parameter that is set now, or at time zero, has the value from the first frame of the next call on. -/
theorem C83_set_now (k : FxKind) (i : Id) (name : String) (mf sr : Nat) (hsr : 0 < sr) (hle : sr ≤ 2 ^ 30)
    (changes : Nat → List (Id × ParameterRequest)) (n : Nat) (v : ℝ)
    (hown : ∀ j, (changes j).filter (fun x => x.1 = i ∧ x.2.name = name) =
      if j = n then [(i, ParameterRequest.change name ⟨v, Timestamp.zero, .immediate⟩)] else [])
    (ks : List (Call ℝ FxNode ParameterRequest)) (es : List (ChainEvent ParameterRequest))
    (h : ChainHistory mf sr changes ks es) (F : Nat) (hF : F < framesIn ks) :
    k.track sr es i name F = if framesIn (ks.take n) ≤ F ∧ n < ks.length then v else k.default name := by
  obtain ⟨hist, h1, h2, _⟩ := track_values i name (.new realArith (k.default name))
    (own := onlyAt n ⟨v, Timestamp.zero, .immediate⟩) (by
      intro j
      rw [hown j, onlyAt]
      split <;> rfl) h
  obtain ⟨t, t1, t2⟩ := Gain.one_change_values (k.default name) hsr hle h1 hF
  have ht := (Gain.history_times hsr (by omega) _ h1 t1).1
  rw [FxKind.track, h2, t2]
  have : Timestamp.zero ≤ t := ht
  simp only [this, and_true]

/-- Of parameter `name` of node `i` nothing but cancellations and immediate changes that end at `e` or later. -/
def LateOnly (i : Id) (name : String) (e : Int) (cs : List (Id × ParameterRequest)) : Prop :=
  ∀ r, (i, r) ∈ cs → r.name = name → match r with
    | .change _ c => c.method = .immediate ∧ e ≤ c.endTime
    | .cancel _ _ => True

theorem late_before {k : FxKind} {i : Id} {name : String} {mf sr : Nat} (hsr : 0 < sr) (hle : sr ≤ 2 ^ 30)
    {changes : Nat → List (Id × ParameterRequest)} {e : Int} {ks : List (Call ℝ FxNode ParameterRequest)}
    {es : List (ChainEvent ParameterRequest)} (h : ChainHistory mf sr changes ks es)
    (hlate : ∀ j < ks.length, LateOnly i name e (changes j)) (ht : (framesIn ks : ℚ) / sr * 2 ^ 32 + 3 / 2 < e) :
    (∀ x ∈ parameterTrack sr i name (.new realArith (k.default name)) es, x = k.default name) ∧
      Quiet (k.default name) (fun t => t < e) (parameterAfter sr i name (.new realArith (k.default name)) es) := by
  refine quiet_events sr i name es ?_ ?_ _ (quiet_new _ _)
  · intro t n hb j hj
    obtain ⟨F, h1, h2⟩ := history_block_times hsr (by omega) h t n hb j hj
    have h3 := (abs_le.mp h2).2
    rw [show Timestamp.one = 2 ^ 32 by norm_num [Timestamp.one]] at h3
    have h4 : (F : ℚ) / sr ≤ (framesIn ks : ℚ) / sr := by
      have : (F : ℚ) ≤ framesIn ks := by exact_mod_cast h1.le
      gcongr
    have h5 : (Timestamp.incrementedBySamples t j sr : ℚ) < e := by linarith
    exact_mod_cast h5
  · intro r hr hn
    obtain ⟨j, h1, h2⟩ := history_requests h i r hr
    have := hlate j h1 r h2 hn
    cases r with
    | change n c => exact ⟨this.1, fun t ht => by have := this.2; omega⟩
    | cancel n w => trivial

theorem cancelled {k : FxKind} {i : Id} {name : String} {mf sr : Nat} (hsr : 0 < sr) (hle : sr ≤ 2 ^ 30)
    {changes : Nat → List (Id × ParameterRequest)} {m : Nat} {e : Int} {before after : List (Id × ParameterRequest)}
    {w : Option Int} (hm : changes m = before ++ (i, .cancel name w) :: after)
    (hlate : ∀ j < m, LateOnly i name e (changes j)) (hbefore : LateOnly i name e before)
    (hafter : ∀ x ∈ after, ¬ (x.1 = i ∧ x.2.name = name))
    (hrest : ∀ j, m < j → ∀ x ∈ changes j, ¬ (x.1 = i ∧ x.2.name = name))
    {ks : List (Call ℝ FxNode ParameterRequest)} {es : List (ChainEvent ParameterRequest)}
    (h : ChainHistory mf sr changes ks es) (ht : (framesIn (ks.take m) : ℚ) / sr * 2 ^ 32 + 3 / 2 < e)
    (hw : ∀ es0 p, (∀ r, ChainEvent.change i r ∈ es0 → r.name = name →
        (∃ j < m, (i, r) ∈ changes j) ∨ (i, r) ∈ before) →
      p = parameterAfter sr i name (.new realArith (k.default name)) es0 →
      ((ParameterRequest.cancel name w).apply p).changes = []) {F : Nat} (hF : F < framesIn ks) :
    k.track sr es i name F = k.default name := by
  have htot := Chain.history_total h
  obtain ⟨es1, es2, rfl, h1, h2⟩ := history_split h m
  obtain ⟨l1, l2⟩ := late_before (k := k) hsr hle h1 (by
    intro j hj
    rw [List.length_take] at hj
    exact hlate j (by omega)) ht
  have hall : ∀ x ∈ parameterTrack sr i name (.new realArith (k.default name)) (es1 ++ es2), x = k.default name := by
    rw [(track_append ..).1]
    intro x hx
    rcases List.mem_append.mp hx with hx | hx
    · exact l1 x hx
    · rcases h2 with ⟨_, rfl⟩ | ⟨es3, rfl, h3⟩
      · cases hx
      · rw [hm, List.map_append, List.map_cons, List.append_assoc, List.cons_append, (track_append ..).1] at hx
        obtain ⟨q1, q2⟩ := quiet_events (v := k.default name) (A := fun t => t < e) sr i name
          (before.map (fun x => .change x.1 x.2)) (by
            intro t n hb
            obtain ⟨y, _, hy⟩ := List.mem_map.mp hb
            cases hy) (by
            intro r hr hn
            obtain ⟨y, hy, hy'⟩ := List.mem_map.mp hr
            injection hy' with e1 e2
            subst e1 e2
            have := hbefore y.2 hy hn
            generalize y.2 = r at *
            cases r with
            | change n c => exact ⟨this.1, fun t ht => by have := this.2; omega⟩
            | cancel n w => trivial) _ l2
        rcases List.mem_append.mp hx with hx | hx
        · exact q1 x hx
        · rw [parameterTrack, if_pos ⟨rfl, rfl⟩] at hx
          have hc := hw (es1 ++ before.map (fun x => .change x.1 x.2)) _ (by
            intro r hr hn
            rcases List.mem_append.mp hr with hr | hr
            · obtain ⟨j, j1, j2⟩ := history_requests h1 i r hr
              rw [List.length_take] at j1
              exact .inl ⟨j, by omega, j2⟩
            · obtain ⟨y, hy, hy'⟩ := List.mem_map.mp hr
              injection hy' with e1 e2
              subst e1 e2
              exact .inr hy) (track_append ..).2.symm
          refine (quiet_events (A := fun _ => True) sr i name _ (fun _ _ _ _ _ => trivial) ?_ _ ?_).1 x hx
          · intro r hr hn
            exfalso
            rcases List.mem_append.mp hr with hr | hr
            · obtain ⟨y, hy, hy'⟩ := List.mem_map.mp hr
              injection hy' with e1 e2
              subst e1 e2
              exact hafter y hy ⟨rfl, hn⟩
            · obtain ⟨j, j1, j2⟩ := h3 i r hr
              exact hrest j j1 _ j2 ⟨rfl, hn⟩
          · have hq := q2.apply (r := .cancel name w) trivial
            exact ⟨hq.value, hq.coefficient, hq.increment, hq.current, by
              intro c hc'; rw [hc] at hc'; cases hc'⟩
  have hlen := track_length sr i name (es1 ++ es2) (.new realArith (k.default name))
  rw [FxKind.track, List.getD_eq_getElem?_getD, List.getElem?_eq_getElem (by omega), Option.getD_some]
  exact hall _ (List.getElem_mem _)

/-- C83: cancelling all changes of a parameter before any of them is due leaves it at the value of the documentation
for good, however many there are. -/
theorem C83_cancel_all (k : FxKind) (i : Id) (name : String) (mf sr : Nat) (hsr : 0 < sr) (hle : sr ≤ 2 ^ 30)
    (changes : Nat → List (Id × ParameterRequest)) (m : Nat) (e : Int) (before after : List (Id × ParameterRequest))
    (hm : changes m = before ++ (i, .cancel name none) :: after)
    (hlate : ∀ j < m, LateOnly i name e (changes j)) (hbefore : LateOnly i name e before)
    (hafter : ∀ x ∈ after, ¬ (x.1 = i ∧ x.2.name = name))
    (hrest : ∀ j, m < j → ∀ x ∈ changes j, ¬ (x.1 = i ∧ x.2.name = name))
    (ks : List (Call ℝ FxNode ParameterRequest)) (es : List (ChainEvent ParameterRequest))
    (h : ChainHistory mf sr changes ks es) (ht : (framesIn (ks.take m) : ℚ) / sr * 2 ^ 32 + 3 / 2 < e)
    (F : Nat) (hF : F < framesIn ks) : k.track sr es i name F = k.default name :=
  cancelled hsr hle hm hlate hbefore hafter hrest h ht (fun _ _ _ _ => rfl) hF

theorem after_pending {sr : Nat} {i : Id} {name : String} {Q : ParameterChange ℝ → Prop}
    (es : List (ChainEvent ParameterRequest))
    (h : ∀ n c, ChainEvent.change i (.change n c) ∈ es → n = name → Q c) :
    ∀ p, (∀ c ∈ p.changes, Q c) → ∀ c ∈ (parameterAfter sr i name p es).changes, Q c := by
  induction es with
  | nil => intro p hp; exact hp
  | cons e es ih =>
    have ih := ih fun n c hc => h n c (List.mem_cons_of_mem _ hc)
    intro p hp
    cases e with
    | change j r =>
      rw [parameterAfter]
      split
      · rename_i hj
        obtain ⟨rfl, hj⟩ := hj
        refine ih _ ?_
        cases r with
        | change n c =>
          intro d hd
          rcases List.mem_append.mp ((List.mergeSort_perm _ _).mem_iff.mp hd) with hd | hd
          · exact hp d hd
          · rw [List.mem_singleton] at hd
            rw [hd]
            exact h n c List.mem_cons_self hj
        | cancel n w =>
          cases w with
          | none => intro c hc; cases hc
          | some t => exact fun c hc => hp c (List.mem_filter.mp hc).1
      · exact ih _ hp
    | block t n =>
      rw [parameterAfter]
      exact ih _ (process_pending hp t n)

/-- C83, what really happens when the changes that end after a time are cancelled: those that end before it are lost. -/
theorem C83_cancel_after_drops_earlier (k : FxKind) (i : Id) (name : String) (mf sr : Nat) (hsr : 0 < sr)
    (hle : sr ≤ 2 ^ 30) (changes : Nat → List (Id × ParameterRequest)) (m : Nat) (e t : Int)
    (before after : List (Id × ParameterRequest)) (hm : changes m = before ++ (i, .cancel name (some t)) :: after)
    (hlate : ∀ j < m, LateOnly i name e (changes j)) (hbefore : LateOnly i name e before)
    (hearly : ∀ c, (i, .change name c) ∈ before ∨ (∃ j < m, (i, .change name c) ∈ changes j) → c.endTime < t)
    (hafter : ∀ x ∈ after, ¬ (x.1 = i ∧ x.2.name = name))
    (hrest : ∀ j, m < j → ∀ x ∈ changes j, ¬ (x.1 = i ∧ x.2.name = name))
    (ks : List (Call ℝ FxNode ParameterRequest)) (es : List (ChainEvent ParameterRequest))
    (h : ChainHistory mf sr changes ks es) (ht : (framesIn (ks.take m) : ℚ) / sr * 2 ^ 32 + 3 / 2 < e)
    (F : Nat) (hF : F < framesIn ks) : k.track sr es i name F = k.default name := by
  refine cancelled hsr hle hm hlate hbefore hafter hrest h ht ?_ hF
  intro es0 p hr hp
  have := after_pending (sr := sr) (i := i) (name := name) (Q := fun c => c.endTime < t) es0 (by
    rintro n c hc rfl
    rcases hr _ hc rfl with h1 | h1
    · exact hearly c (.inr h1)
    · exact hearly c (.inl h1)) (.new realArith (k.default name)) (by intro c hc; cases hc)
  rw [← hp] at this
  show p.changes.filter _ = []
  rw [List.filter_eq_nil_iff]
  intro c hc
  have := this c hc
  simpa using this

/-- Not a cancellation for parameter `name` of node `i`. -/
def kept (i : Id) (name : String) (x : Id × ParameterRequest) : Bool :=
  match x.2 with
  | .cancel n _ => !decide (x.1 = i ∧ n = name)
  | .change _ _ => true

/-- An event that is not a cancellation for parameter `name` of node `i`. -/
def keptEvent (i : Id) (name : String) : ChainEvent ParameterRequest → Bool
  | .change j r => kept i name (j, r)
  | .block _ _ => true

theorem history_kept {S P : Type} {mf sr : Nat} (i : Id) (name : String) {changes : Nat → List (Id × ParameterRequest)}
    {ks : List (Call S P ParameterRequest)} {es : List (ChainEvent ParameterRequest)}
    (h : ChainHistory mf sr changes ks es) :
    ChainHistory mf sr (fun j => (changes j).filter (kept i name)) ks (es.filter (keptEvent i name)) := by
  induction h with
  | nil => exact .nil
  | @snoc ks es k bs h hb ih =>
    have := ChainHistory.snoc k bs ih hb
    have hb' : (bs.map fun b => ChainEvent.block (C := ParameterRequest) b.1 b.2).filter (keptEvent i name) =
        bs.map fun b => .block b.1 b.2 := by
      rw [List.filter_eq_self]
      intro e he
      obtain ⟨b, _, rfl⟩ := List.mem_map.mp he
      rfl
    rw [List.filter_append, List.filter_append, List.filter_map, hb']
    exact this

theorem track_kept {sr : Nat} {i : Id} {name : String} {t : Int} (es : List (ChainEvent ParameterRequest))
    (hc : ∀ n c, ChainEvent.change i (.change n c) ∈ es → n = name → t ≤ c.endTime)
    (hx : ∀ n w, ChainEvent.change i (.cancel n w) ∈ es → n = name → w = some t) :
    ∀ p, (∀ c ∈ p.changes, t ≤ c.endTime) →
      parameterTrack sr i name p es = parameterTrack sr i name p (es.filter (keptEvent i name)) := by
  induction es with
  | nil => intro p _; rfl
  | cons e es ih =>
    have ih := ih (fun n c h => hc n c (List.mem_cons_of_mem _ h)) (fun n w h => hx n w (List.mem_cons_of_mem _ h))
    intro p hp
    cases e with
    | block u n =>
      rw [List.filter_cons_of_pos rfl]
      simp only [parameterTrack]
      rw [ih _ (process_pending (Q := fun c => t ≤ c.endTime) hp u n)]
    | change j r =>
      cases r with
      | change n c =>
        rw [List.filter_cons_of_pos rfl]
        simp only [parameterTrack]
        refine ih _ ?_
        split
        · rename_i hj
          obtain ⟨rfl, hj⟩ := hj
          intro d hd
          rcases List.mem_append.mp ((List.mergeSort_perm _ _).mem_iff.mp hd) with hd | hd
          · exact hp d hd
          · rw [List.mem_singleton] at hd
            rw [hd]
            exact hc n c List.mem_cons_self hj
        · exact hp
      | cancel n w =>
        by_cases hj : j = i ∧ n = name
        · rw [List.filter_cons_of_neg (by simp [keptEvent, kept, hj])]
          rw [parameterTrack, if_pos (show j = i ∧ (ParameterRequest.cancel n w).name = name from hj)]
          obtain ⟨rfl, rfl⟩ := hj
          obtain rfl := hx n w List.mem_cons_self rfl
          have : (ParameterRequest.cancel n (some t)).apply p = p := by
            show { p with changes := p.changes.filter _ } = p
            rw [List.filter_eq_self.mpr]
            intro c hc'
            simpa using hp c hc'
          rw [this]
          exact ih p hp
        · rw [List.filter_cons_of_pos (by simp [keptEvent, kept, hj])]
          simp only [parameterTrack]
          rw [if_neg (by simpa [ParameterRequest.name] using hj)]
          exact ih p hp

/-- C83, what really happens when the changes that end after a time are cancelled: those that end after it are made. -/
theorem C83_cancel_after_keeps_later (k : FxKind) (i : Id) (name : String) (mf sr : Nat) (hsr : 0 < sr) (hle : sr ≤ 2 ^ 30)
    (changes : Nat → List (Id × ParameterRequest)) (n m : Nat) (v : ℝ) (e t : Int) (hte : t ≤ e)
    (hown : ∀ j, (changes j).filter (fun x => x.1 = i ∧ x.2.name = name) =
      (if j = n then [(i, ParameterRequest.change name ⟨v, e, .immediate⟩)] else []) ++
        if j = m then [(i, ParameterRequest.cancel name (some t))] else [])
    (ks : List (Call ℝ FxNode ParameterRequest)) (es : List (ChainEvent ParameterRequest))
    (h : ChainHistory mf sr changes ks es) (F : Nat) (hF : F < framesIn ks) :
    ((F < framesIn (ks.take n) ∨ ks.length ≤ n ∨ (F : ℚ) / sr * 2 ^ 32 + 3 / 2 < e) →
      k.track sr es i name F = k.default name) ∧
    (framesIn (ks.take n) ≤ F → n < ks.length → (e : ℚ) + 3 / 2 ≤ (F : ℚ) / sr * 2 ^ 32 →
      k.track sr es i name F = v) := by
  have hmem : ∀ r, ChainEvent.change i r ∈ es → r.name = name →
      r = .change name ⟨v, e, .immediate⟩ ∨ r = .cancel name (some t) := by
    intro r hr hn
    obtain ⟨j, _, hj⟩ := history_requests h i r hr
    have hf : (i, r) ∈ (changes j).filter (fun x => x.1 = i ∧ x.2.name = name) :=
      List.mem_filter.mpr ⟨hj, by simpa using hn⟩
    rw [hown j, List.mem_append] at hf
    rcases hf with hf | hf <;> split at hf <;> simp at hf
    · exact .inl hf
    · exact .inr hf
  have htrack := track_kept (sr := sr) (t := t) es (by
      intro n' c hc hn
      rcases hmem _ hc hn with h1 | h1
      · injection h1 with _ h1
        rw [h1]
        exact hte
      · cases h1) (by
      intro n' w hc hn
      rcases hmem _ hc hn with h1 | h1
      · cases h1
      · injection h1) (.new realArith (k.default name)) (by intro c hc; cases hc)
  have := C83_set_partial k i name mf sr hsr hle (fun j => (changes j).filter (kept i name)) n v e (by
    intro j
    rw [List.filter_filter]
    have : ((changes j).filter fun x => (decide (x.1 = i ∧ x.2.name = name) && kept i name x)) =
        ((changes j).filter (fun x => decide (x.1 = i ∧ x.2.name = name))).filter (kept i name) := by
      rw [List.filter_filter]
      congr 1
      funext x
      rw [Bool.and_comm]
    rw [this, hown j, List.filter_append]
    split <;> split <;> simp [kept]) ks _ (history_kept i name h) F hF
  rw [FxKind.track, ← htrack] at this
  exact this

/-- The claim about cancelling the changes that end after a time: those that are not due yet are not made. -/
def CancelAfterCancels : Prop :=
  ∀ (k : FxKind) (i : Id) (name : String) (mf sr : Nat) (v : ℝ) (e t : Int)
    (ks : List (Call ℝ FxNode ParameterRequest)) (es : List (ChainEvent ParameterRequest)), 0 < sr → name ∈ k.names →
    ChainHistory mf sr (fun j => if j = 0 then [(i, .change name ⟨v, e, .immediate⟩), (i, .cancel name (some t))] else [])
      ks es → 0 ≤ t → t < e → ∀ F < framesIn ks, k.track sr es i name F = k.default name

/-- The events of a session of one call of two frames, for examples. -/
def oneCallEvents (cs : List (Id × ParameterRequest)) : List (ChainEvent ParameterRequest) :=
  [] ++ cs.map (fun x => .change x.1 x.2) ++ [(Timestamp.incrementedBySamples 0 0 1, 2)].map fun b => .block b.1 b.2

/-- A session of one call of two frames, for examples. -/
theorem oneCall (cs : List (Id × ParameterRequest)) :
    ChainHistory (S := ℝ) (P := FxNode) 16 1 (fun j => if j = 0 then cs else [])
      ([] ++ [⟨[], .owned [0, 0] 1 2 1, .owned [0, 0] 1 2 1, fun _ => Env.plain⟩]) (oneCallEvents cs) :=
  .snoc _ [(Timestamp.incrementedBySamples 0 0 1, 2)] .nil ⟨0, [(0, 2)], by
    intro u; simp [framesIn], ⟨rfl, by norm_num, by norm_num, by simp [Buf.frameCount], rfl⟩, rfl⟩

example : ∀ F < 2, (FxKind.gain 1).track 1 (oneCallEvents [(2, .cancel "pan" none),
    (1, .change "gain" ⟨2, Timestamp.zero, .immediate⟩)]) 1 "gain" F = 2 := by
  intro F hF
  rw [C83_set_now (.gain 1) 1 "gain" 16 1 (by norm_num) (by norm_num) _ 0 2 (by
    intro j
    by_cases hj : j = 0 <;> simp [hj, ParameterRequest.name]) _ _ (oneCall _) F
    (by simpa [framesIn, Buf.frameCount] using hF)]
  exact if_pos ⟨by simp [framesIn], by simp⟩

example : ∀ F < 2, (FxKind.gain 1).track 1 (oneCallEvents [(1, .change "gain" ⟨2, 10, .immediate⟩), (2, .cancel "pan" none),
    (1, .change "gain" ⟨3, 20, .immediate⟩), (1, .cancel "gain" none)]) 1 "gain" F = 1 := fun F hF =>
  C83_cancel_all (.gain 1) 1 "gain" 16 1 (by norm_num) (by norm_num) _ 0 10
    [(1, .change "gain" ⟨2, 10, .immediate⟩), (2, .cancel "pan" none), (1, .change "gain" ⟨3, 20, .immediate⟩)] [] rfl
    (by simp) (by
      intro r hr hn
      simp only [List.mem_cons, Prod.mk.injEq, List.not_mem_nil, or_false] at hr
      rcases hr with ⟨_, rfl⟩ | ⟨h, _⟩ | ⟨_, rfl⟩
      · exact ⟨rfl, le_refl _⟩
      · simp at h
      · exact ⟨rfl, by norm_num⟩) (by simp)
    (by intro j hj; rw [if_neg (by omega)]; simp) _ _ (oneCall _) (by norm_num [framesIn]) F (by simpa [framesIn, Buf.frameCount] using hF)

example : ∀ F < 2, (FxKind.gain 1).track 1 (oneCallEvents [(1, .change "gain" ⟨2, 10, .immediate⟩),
    (1, .cancel "gain" (some 11))]) 1 "gain" F = 1 := fun F hF =>
  C83_cancel_after_drops_earlier (.gain 1) 1 "gain" 16 1 (by norm_num) (by norm_num) _ 0 10 11
    [(1, .change "gain" ⟨2, 10, .immediate⟩)] [] rfl (by simp) (by
      intro r hr hn
      simp only [List.mem_cons, Prod.mk.injEq, List.not_mem_nil, or_false] at hr
      obtain ⟨_, rfl⟩ := hr
      exact ⟨rfl, le_refl _⟩) (by
      rintro c (h | ⟨j, h, _⟩)
      · simp only [List.mem_cons, Prod.mk.injEq, ParameterRequest.change.injEq, true_and, List.not_mem_nil, or_false] at h
        rw [h]
        norm_num
      · omega) (by simp)
    (by intro j hj; rw [if_neg (by omega)]; simp) _ _ (oneCall _) (by norm_num [framesIn]) F (by simpa [framesIn, Buf.frameCount] using hF)

/-- C83 is violated for cancelling the changes that end after a time: a change is made all the same. -/
theorem C83_cancel_after_violated : ¬ CancelAfterCancels := by
  intro hall
  have hist := oneCall [(1, .change "gain" ⟨2, 10, .immediate⟩), (1, .cancel "gain" (some 5))]
  have h1 := hall (.gain 1) 1 "gain" 16 1 2 10 5 _ _ (by norm_num) (by simp [FxKind.names]) hist (by norm_num) (by norm_num) 1
    (by simp [framesIn, Buf.frameCount])
  have h2 := (C83_cancel_after_keeps_later (.gain 1) 1 "gain" 16 1 (by norm_num) (by norm_num) _ 0 0 2 10 5 (by norm_num) (by
    intro j
    by_cases hj : j = 0 <;> simp [hj, ParameterRequest.name]) _ _ hist 1 (by simp [framesIn, Buf.frameCount])).2
    (by simp [framesIn]) (by simp) (by norm_num)
  rw [h1] at h2
  norm_num [FxKind.default] at h2

/-! ### Examples -/

/-- A gain and a pan, for examples. -/
def gainThenPan : List (Id × FxKind) := [(1, .gain 2), (2, .pan 2)]

/-- The pan is set to the right at the start. -/
noncomputable def panRight (i : Nat) : List (Id × ParameterRequest) :=
  if i = 0 then [(2, .change "pan" ⟨1, 0, .immediate⟩)] else []

/-- Numbers with which the kernels take no short cuts. -/
noncomputable def plain : Platform := ⟨fun x => decide (x = 0), fun x => decide (x = 1), fun _ _ => (0, 0), fun _ _ _ => (0, 0, 0)⟩

/-- A process call of eight frames of ones in which the nodes are made, connected and told to pan. -/
noncomputable def fxCall (ds : List (Dsp FxNode)) : Call ℝ FxNode ParameterRequest :=
  ⟨((chainProgram true ds).map ApiCall.command ++ [Command.change 2 (ParameterRequest.change "pan" ⟨1, 0, .immediate⟩)]).map
      fun x => (x, .plain),
    .owned (List.replicate 16 1) 2 8 48000, .owned (List.replicate 16 0) 2 8 48000, fun _ => Env.plain⟩

theorem fxCall_valid (ds : List (Dsp FxNode)) : (fxCall ds).Valid := by
  refine ⟨?_, ?_, trivial, le_refl _, ?_⟩
  · simp [fxCall, Buf.WF]
  · simp [fxCall, Buf.WF]
  · intro x hx
    obtain ⟨y, hy, rfl⟩ := List.mem_map.mp hx
    rw [List.mem_append, List.mem_map] at hy
    rcases hy with ⟨a, _, rfl⟩ | hy
    · exact command_api a
    · rw [List.mem_singleton] at hy; subst hy; trivial

theorem fxCall_plays (ds : List (Dsp FxNode)) : PlaysChain true ds panRight [fxCall ds] := by
  intro i k hk
  match i with
  | 0 =>
    simp only [List.getElem?_cons_zero, Option.some.injEq] at hk
    subst hk
    simp [ApiCall.command, fxCall, panRight, Function.comp_def]
  | i + 1 => simp at hk

theorem gainThenPan_usable : ∀ q ∈ gainThenPan, q.2.Usable ∧ q.2.NotOscillator := by
  intro q hq
  simp only [gainThenPan, List.mem_cons, List.not_mem_nil, or_false] at hq
  rcases hq with rfl | rfl
  · exact ⟨trivial, trivial⟩
  · exact ⟨le_refl 2, trivial⟩

/-- The hypotheses of the theorems above: one call. -/
theorem fxCall_runs : ∃ ds E o, gainThenPan.mapM (fun q => q.2.make 48000 16 q.1) = .ok ds ∧
    (∀ l ∈ [] ++ [fxCall ds], l.Valid) ∧ PlaysChain true ds panRight ([] ++ [fxCall ds]) ∧
    (Processor.new 48000 2 16).process (ops plain) (fxCall ds).env (fxCall ds).commands (fxCall ds).input
      (fxCall ds).output = .ok (o, E) := by
  obtain ⟨ds, h1, h2⟩ := C83_runs (N := plain) (by simp [plain]) (by simp [plain]) true gainThenPan (by simp [gainThenPan])
    gainThenPan_usable 16 2 48000 (by norm_num) (by norm_num) (by
      intro q hq
      simp only [gainThenPan, List.mem_cons, List.not_mem_nil, or_false] at hq
      rcases hq with rfl | rfl <;> simp [FxKind.inputs, FxKind.outputs]) (by simp [gainThenPan]) (by simp [gainThenPan])
    panRight (by
      intro i x hx
      rw [panRight] at hx
      split at hx
      · rw [List.mem_singleton] at hx
        subst hx
        exact ⟨.pan 2, by simp [gainThenPan], by simp [ParameterRequest.name, FxKind.names]⟩
      · cases hx)
  obtain ⟨E, hE⟩ := h2 [fxCall ds] (by simpa using fxCall_valid ds) (fxCall_plays ds)
  obtain ⟨o, E1, h3, _⟩ := calls_cons hE
  exact ⟨ds, E1, o, h1, by simpa using fxCall_valid ds, fxCall_plays ds, h3⟩

/-- After the first frame the left channel is silent, and the right one is what went in. -/
example : ∃ ds E o, gainThenPan.mapM (fun q => q.2.make 48000 16 q.1) = .ok ds ∧
    (Processor.new 48000 2 16).process (ops plain) (fxCall ds).env (fxCall ds).commands (fxCall ds).input
      (fxCall ds).output = .ok (o, E) ∧
    ∀ f, 0 < f → f < 8 → o.sample? 0 f = some 0 ∧ o.sample? 1 f = some 1 := by
  obtain ⟨ds, E, o, h1, h2, h3, h4⟩ := fxCall_runs
  refine ⟨ds, E, o, h1, h4, ?_⟩
  obtain ⟨es, e1, e2⟩ := C83_stream (N := plain) (by simp [plain]) (by simp [plain]) true gainThenPan (by simp [gainThenPan])
    (fun q hq => (gainThenPan_usable q hq).1) 16 2 48000 (by norm_num) (by norm_num) ds h1 panRight [] (fxCall ds) h2 h3
    _ E rfl o h4
  have hfr : framesIn ([] ++ [fxCall ds]) = 8 := by simp [framesIn, fxCall, Buf.frameCount]
  intro f h0 hf
  have hgain : (FxKind.gain 2).track 48000 es 1 "gain" f = 1 :=
    C83_untouched (.gain 2) 1 "gain" 16 48000 panRight (by
      intro j x hx
      rw [panRight] at hx
      split at hx
      · rw [List.mem_singleton] at hx; subst hx; simp
      · cases hx) _ es e1 f (by omega)
  have hpan : (FxKind.pan 2).track 48000 es 2 "pan" f = 1 :=
    (C83_set_partial (.pan 2) 2 "pan" 16 48000 (by norm_num) (by norm_num) panRight 0 1 0 (by
      intro j
      rw [panRight]
      split <;> simp [ParameterRequest.name]) _ es e1 f (by omega)).2 (by simp [framesIn]) (by simp) (by
        have : (1 : ℚ) ≤ f := by exact_mod_cast h0
        push_cast
        linarith)
  have hin : ∀ c < 2, sessionInput true 2 ([] ++ [fxCall ds]) c f = 1 := by
    intro c hc
    have : c = 0 ∨ c = 1 := by omega
    simp only [List.nil_append, sessionInput, followed]
    rw [if_pos (by simpa [fxCall, Buf.frameCount] using hf), if_pos ⟨trivial, hc⟩]
    simp only [fxCall, Buf.sampleOrSilence, Buf.sample?]
    rw [if_pos ⟨hc, hf⟩, List.getElem?_replicate, if_pos (by omega)]
    rfl
  have key := e2 ⟨trivial, trivial, trivial⟩
  have hcc : (fxCall ds).output.channelCount = 2 := rfl
  have hfc : (fxCall ds).output.frameCount = 8 := rfl
  have h00 : framesIn ([] : List (Call ℝ FxNode ParameterRequest)) + f = f := by simp [framesIn]
  constructor
  · rw [key 0 f (by omega) (by omega), if_pos (by norm_num), h00]
    simp [gainThenPan, heardThrough, FxKind.heard, FxKind.outputs, FxKind.effect, hpan]
  · rw [key 1 f (by omega) (by omega), if_pos (by norm_num), h00]
    have := hin 1 (by norm_num)
    simp only [List.nil_append] at this
    simp [gainThenPan, heardThrough, FxKind.heard, FxKind.outputs, FxKind.effect, hpan, hgain, this]

end Fx
end Rawdio
