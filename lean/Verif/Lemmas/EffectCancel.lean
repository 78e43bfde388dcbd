import Verif.Lemmas.EffectTime

/-! Helper lemmas: parameters of effects whose changes are cancelled. -/

namespace Rawdio
namespace Fx

open RealtimeParameter

/-- A parameter that stays at `v` at the times `A`. -/
structure Quiet (v : ℝ) (A : Int → Prop) (p : RealtimeParameter ℝ) : Prop where
  value : p.value = v
  coefficient : p.coefficient = 1
  increment : p.increment = 0
  current : p.current.value = v
  pending : ∀ c ∈ p.changes, c.method = .immediate ∧ ∀ t, A t → t < c.endTime

theorem quiet_new (v : ℝ) (A : Int → Prop) : Quiet v A (.new realArith v) :=
  ⟨rfl, rfl, rfl, rfl, by intro c hc; cases hc⟩

theorem Quiet.step {v : ℝ} {A : Int → Prop} {p : RealtimeParameter ℝ} (h : Quiet v A p) (sr : Nat) {t : Int} (ht : A t) :
    RealtimeParameter.step realArith sr p t = p := by
  have hb : begin realArith p t sr p.value = p := by
    unfold begin
    cases hc : p.changes with
    | nil => rfl
    | cons c rest =>
      obtain ⟨h1, h2⟩ := h.pending c (by rw [hc]; exact List.mem_cons_self)
      simp only [h1]
      rw [if_neg (by have := h2 t ht; omega)]
  have hs : advance realArith p t p.value = p.value := by
    unfold advance
    split
    · rw [h.current, h.value]
    · change p.value * p.coefficient + p.increment = _
      rw [h.coefficient, h.increment, mul_one, add_zero]
  unfold RealtimeParameter.step valueAtTime
  simp only [hb, hs]

theorem Quiet.process {v : ℝ} {A : Int → Prop} {p : RealtimeParameter ℝ} (h : Quiet v A p) (sr : Nat) {t : Int} {n : Nat}
    (ht : ∀ i < n, A (Timestamp.incrementedBySamples t i sr)) : p.process realArith t n sr = (List.replicate n v, p) := by
  by_cases hs : isStatic realArith p = true
  · unfold RealtimeParameter.process
    rw [if_pos hs, h.value]
  · rw [process_steps _ _ _ _ _ (by simpa using hs), steps_fixed, h.value]
    · simp
    · intro u hu
      obtain ⟨i, hi, rfl⟩ := List.mem_map.mp hu
      exact h.step sr (ht i (List.mem_range.mp hi))

theorem Quiet.mono {v : ℝ} {A : Int → Prop} {p q : RealtimeParameter ℝ} (h : Quiet v A p) (hq : q = { p with changes := q.changes })
    (hc : ∀ c ∈ q.changes, c.method = .immediate ∧ ∀ t, A t → t < c.endTime) : Quiet v A q :=
  ⟨by rw [hq]; exact h.value, by rw [hq]; exact h.coefficient, by rw [hq]; exact h.increment, by rw [hq]; exact h.current, hc⟩

/-- Cancellations, and immediate changes after the times `A`. -/
def LateRequest (A : Int → Prop) : ParameterRequest → Prop
  | .change _ c => c.method = .immediate ∧ ∀ t, A t → t < c.endTime
  | .cancel _ _ => True

theorem Quiet.apply {v : ℝ} {A : Int → Prop} {p : RealtimeParameter ℝ} (h : Quiet v A p) {r : ParameterRequest}
    (hr : LateRequest A r) : Quiet v A (r.apply p) := by
  cases r with
  | change n c =>
    refine h.mono rfl ?_
    intro d hd
    rcases List.mem_append.mp ((List.mergeSort_perm _ _).mem_iff.mp hd) with hd | hd
    · exact h.pending d hd
    · rw [List.mem_singleton] at hd
      rw [hd]
      exact hr
  | cancel n w =>
    cases w with
    | none => exact h.mono rfl (by intro c hc; cases hc)
    | some t => exact h.mono rfl (fun c hc => h.pending c (List.mem_filter.mp hc).1)

theorem quiet_events {v : ℝ} {A : Int → Prop} (sr : Nat) (i : Id) (name : String)
    (es : List (ChainEvent ParameterRequest))
    (hb : ∀ t n, ChainEvent.block t n ∈ es → ∀ i < n, A (Timestamp.incrementedBySamples t i sr))
    (hr : ∀ r, ChainEvent.change i r ∈ es → r.name = name → LateRequest A r) :
    ∀ p, Quiet v A p → (∀ x ∈ parameterTrack sr i name p es, x = v) ∧ Quiet v A (parameterAfter sr i name p es) := by
  induction es with
  | nil => intro p h; exact ⟨(by intro x hx; cases hx), h⟩
  | cons e es ih =>
    have ih := ih (fun t n h => hb t n (List.mem_cons_of_mem _ h)) (fun r h => hr r (List.mem_cons_of_mem _ h))
    intro p h
    cases e with
    | change j r =>
      simp only [parameterTrack, parameterAfter]
      split
      · rename_i hj
        obtain ⟨rfl, hj⟩ := hj
        exact ih _ (h.apply (hr r List.mem_cons_self hj))
      · exact ih _ h
    | block t n =>
      simp only [parameterTrack, parameterAfter]
      rw [h.process sr (hb t n List.mem_cons_self)]
      refine ⟨?_, (ih _ h).2⟩
      intro x hx
      rcases List.mem_append.mp hx with hx | hx
      · exact List.eq_of_mem_replicate hx
      · exact (ih _ h).1 x hx

section history

variable {S P C : Type}

/-- The times of the frames of a session. -/
theorem history_block_times {mf sr : Nat} (hsr : 0 < sr) (hlt : sr < 2 ^ 33) {changes : Nat → List (Id × C)}
    {ks : List (Call S P C)} {es : List (ChainEvent C)} (h : ChainHistory mf sr changes ks es) :
    ∀ t n, ChainEvent.block t n ∈ es → ∀ i < n, ∃ F, F < framesIn ks ∧
      |(Timestamp.incrementedBySamples t i sr : ℚ) - (F : ℚ) / sr * Timestamp.one| ≤ 3 / 2 := by
  induction h with
  | nil => intro t n h; cases h
  | @snoc ks es k bs h hb ih =>
    intro t n ht i hi
    rw [Gain.framesIn_append]
    rw [List.append_assoc, List.mem_append, List.mem_append] at ht
    rcases ht with ht | ht | ht
    · obtain ⟨F, h1, h2⟩ := ih t n ht i hi
      exact ⟨F, by omega, h2⟩
    · obtain ⟨x, _, hx⟩ := List.mem_map.mp ht
      cases hx
    · obtain ⟨⟨t', n'⟩, hm, hx⟩ := List.mem_map.mp ht
      injection hx with h1 h2
      simp only at h1 h2
      subst h1 h2
      have hmem : Timestamp.incrementedBySamples t' i sr ∈ frameTimes sr bs :=
        List.mem_flatMap.mpr ⟨_, hm, List.mem_map.mpr ⟨i, List.mem_range.mpr hi, rfl⟩⟩
      obtain ⟨m, hm'⟩ := List.mem_iff_getElem?.mp hmem
      refine ⟨framesIn ks + m, ?_, (Gain.blocksOf_times hsr hlt hb hm').2.1⟩
      have hl := Gain.blocksOf_length hb
      have : m < (frameTimes sr bs).length := by
        by_contra hn
        rw [List.getElem?_eq_none (by omega)] at hm'
        cases hm'
      omega

/-- A session up to call `m`, and from there. -/
theorem history_split {mf sr : Nat} {changes : Nat → List (Id × C)} {ks : List (Call S P C)} {es : List (ChainEvent C)}
    (h : ChainHistory mf sr changes ks es) (m : Nat) :
    ∃ es1 es2, es = es1 ++ es2 ∧ ChainHistory mf sr changes (ks.take m) es1 ∧
      ((ks.length ≤ m ∧ es2 = []) ∨ ∃ es3, es2 = (changes m).map (fun x => .change x.1 x.2) ++ es3 ∧
        ∀ i r, ChainEvent.change i r ∈ es3 → ∃ j, m < j ∧ (i, r) ∈ changes j) := by
  induction h with
  | nil => exact ⟨[], [], rfl, by rw [List.take_nil]; exact .nil, .inl ⟨Nat.zero_le _, rfl⟩⟩
  | @snoc ks es k bs h hb ih =>
    by_cases hm : ks.length + 1 ≤ m
    · refine ⟨_, [], (List.append_nil _).symm, ?_, .inl ⟨by simpa using hm, rfl⟩⟩
      rw [List.take_of_length_le (by simpa using hm)]
      exact .snoc k bs h hb
    · rw [List.take_append_of_le_length (by omega)]
      obtain ⟨es1, es2, h1, h2, h3⟩ := ih
      by_cases hm' : m = ks.length
      · subst hm'
        rw [List.take_length]
        refine ⟨es, _, List.append_assoc _ _ _, h, .inr ⟨_, rfl, ?_⟩⟩
        intro i r hr
        obtain ⟨x, _, hx⟩ := List.mem_map.mp hr
        cases hx
      · rcases h3 with ⟨h3, _⟩ | ⟨es3, rfl, h3⟩
        · omega
        · refine ⟨es1, _, ?_, h2, .inr ⟨es3 ++ ((changes ks.length).map (fun x => .change x.1 x.2) ++
            bs.map fun b => .block b.1 b.2), rfl, ?_⟩⟩
          · rw [h1]; simp only [List.append_assoc]
          · intro i r hr
            rw [List.mem_append, List.mem_append] at hr
            rcases hr with hr | hr | hr
            · exact h3 i r hr
            · obtain ⟨x, hx, hx'⟩ := List.mem_map.mp hr
              injection hx' with e1 e2
              subst e1 e2
              exact ⟨ks.length, by omega, hx⟩
            · obtain ⟨x, _, hx⟩ := List.mem_map.mp hr
              cases hx

/-- The requests of a session are those of its calls. -/
theorem history_requests {mf sr : Nat} {changes : Nat → List (Id × C)} {ks : List (Call S P C)} {es : List (ChainEvent C)}
    (h : ChainHistory mf sr changes ks es) : ∀ i r, ChainEvent.change i r ∈ es → ∃ j < ks.length, (i, r) ∈ changes j := by
  induction h with
  | nil => intro i r h; cases h
  | @snoc ks es k bs h hb ih =>
    intro i r hr
    rw [List.length_append, List.length_singleton]
    rw [List.append_assoc, List.mem_append, List.mem_append] at hr
    rcases hr with hr | hr | hr
    · obtain ⟨j, h1, h2⟩ := ih i r hr
      exact ⟨j, by omega, h2⟩
    · obtain ⟨x, hx, hx'⟩ := List.mem_map.mp hr
      injection hx' with e1 e2
      subst e1 e2
      exact ⟨ks.length, by omega, hx⟩
    · obtain ⟨x, _, hx⟩ := List.mem_map.mp hr
      cases hx

end history

theorem process_pending {Q : ParameterChange ℝ → Prop} {p : RealtimeParameter ℝ} {sr : Nat} (hp : ∀ c ∈ p.changes, Q c)
    (t : Int) (n : Nat) : ∀ c ∈ (p.process realArith t n sr).2.changes, Q c := by
  have hstep : ∀ p : RealtimeParameter ℝ, (∀ c ∈ p.changes, Q c) → ∀ t,
      ∀ c ∈ (RealtimeParameter.step realArith sr p t).changes, Q c := by
    intro p hp t c hc
    change c ∈ (begin realArith p t sr p.value).changes at hc
    refine hp c ?_
    unfold begin at hc
    split at hc
    · exact hc
    · rename_i d rest he
      rw [he]
      split at hc <;> split at hc <;> first
        | exact List.mem_cons_of_mem _ hc
        | (rw [he] at hc; exact hc)
  have hsteps : ∀ ts : List Int, ∀ p : RealtimeParameter ℝ, (∀ c ∈ p.changes, Q c) →
      ∀ c ∈ (steps realArith sr p ts).2.changes, Q c := by
    intro ts
    induction ts with
    | nil => intro p hp; exact hp
    | cons t ts ih => intro p hp; exact ih _ (hstep p hp t)
  by_cases hs : isStatic realArith p = true
  · unfold RealtimeParameter.process
    rw [if_pos hs]
    exact hp
  · rw [process_steps _ _ _ _ _ (by simpa using hs)]
    exact hsteps _ p hp

end Fx
end Rawdio
