import Verif.Lemmas.MixedNodes
import Verif.Spec.AdsrSchedule

/-! # The times of an ADSR envelope in a session -/

namespace Rawdio

/-! ## Values of an envelope -/

/-- Only the events of the frames count. -/
theorem adsrValues_congr {l l' : List (Nat × AdsrEventType)} (n : Nat) : ∀ (f : Nat) (e : AdsrEnvelope),
    (∀ k, f ≤ k → k < f + n → l.filter (fun x => x.1 = k) = l'.filter (fun x => x.1 = k)) →
    adsrValues l f n e = adsrValues l' f n e := by
  induction n with
  | zero => intro f e _; rfl
  | succ n ih =>
    intro f e h
    simp only [adsrValues]
    rw [h f (le_refl _) (by omega), ih (f + 1) _ fun k h1 h2 => h k (by omega) (by omega)]

/-- Frames counted from another one. -/
theorem adsrValues_shift (l : List (Nat × AdsrEventType)) (d n : Nat) : ∀ (f : Nat) (e : AdsrEnvelope),
    adsrValues (l.map fun x => (d + x.1, x.2)) (d + f) n e = adsrValues l f n e := by
  induction n with
  | zero => intro f e; rfl
  | succ n ih =>
    intro f e
    have h : ((l.map fun x => (d + x.1, x.2)).filter fun x => x.1 = d + f) =
        (l.filter fun x => x.1 = f).map fun x => (d + x.1, x.2) := by
      rw [List.filter_map]
      congr 1
      apply List.filter_congr
      intro x _
      simp
    have hf : d + f + 1 = d + (f + 1) := by omega
    simp only [adsrValues, h, List.foldl_map, hf, ih]

theorem adsrValues_split {l l' : List (Nat × AdsrEventType)} {f n : Nat} (hl : ∀ x ∈ l, x.1 < f + n)
    (hl' : ∀ x ∈ l', f + n ≤ x.1) (m : Nat) (e : AdsrEnvelope) :
    adsrValues (l ++ l') f (n + m) e =
      ((adsrValues l' (f + n) m (adsrValues l f n e).1).1,
        (adsrValues l f n e).2 ++ (adsrValues l' (f + n) m (adsrValues l f n e).1).2) := by
  have h1 : adsrValues (l ++ l') f n e = adsrValues l f n e := by
    apply adsrValues_congr
    intro k _ hk
    have : l'.filter (fun x => decide (x.1 = k)) = [] := by
      rw [List.filter_eq_nil_iff]
      intro x hx
      have := hl' x hx
      simp
      omega
    rw [List.filter_append, this, List.append_nil]
  have h2 : ∀ e, adsrValues (l ++ l') (f + n) m e = adsrValues l' (f + n) m e := by
    intro e
    apply adsrValues_congr
    intro k hk _
    have : l.filter (fun x => decide (x.1 = k)) = [] := by
      rw [List.filter_eq_nil_iff]
      intro x hx
      have := hl x hx
      simp
      omega
    rw [List.filter_append, this, List.nil_append]
  rw [adsrValues_append, h1, h2]

namespace AdsrSchedule

variable {sr : Nat}

/-- Blocks at the times of their frames, to one unit. -/
def Paced {C : Type} (sr : Nat) : Nat → List (ChainEvent C) → Prop
  | _, [] => True
  | F, .change _ _ :: es => Paced sr F es
  | F, .block t n :: es => 0 < n ∧ |(t : ℚ) - F / sr * 2 ^ 32| ≤ 1 ∧ Paced sr (F + n) es

/-- The events that are sent, with the frames before. -/
def sentFrom : Nat → List (ChainEvent AdsrEvent) → List (Nat × AdsrEvent)
  | _, [] => []
  | F, .change _ x :: es => (F, x) :: sentFrom F es
  | F, .block _ n :: es => sentFrom (F + n) es

/-- Of two events with the frames before they were sent, the first takes effect first. -/
def earlier (a b : Nat × AdsrEvent) : Bool :=
  decide (a.2.time < b.2.time ∨ (a.2.time = b.2.time ∧ a.2.sequenceNumber ≤ b.2.sequenceNumber))

theorem earlier_sorted (l : List (Nat × AdsrEvent)) : (l.mergeSort earlier).Pairwise fun a b => earlier a b = true := by
  apply List.pairwise_mergeSort
  · intro a b c h1 h2
    simp only [earlier, decide_eq_true_eq] at *
    omega
  · intro a b
    simp only [earlier, Bool.or_eq_true, decide_eq_true_eq]
    omega

theorem earlier_map (l : List (Nat × AdsrEvent)) :
    (l.mergeSort earlier).map (fun x => x.2) = (l.map fun x => x.2).mergeSort EventProcessor.before := by
  rw [List.map_mergeSort]
  intro a _ b _
  rw [AdsrNode.before_eq]
  rfl

/-- An event that has been waiting. -/
def Waits (sr F : Nat) (x : Nat × AdsrEvent) : Prop :=
  x.1 ≤ F ∧ (x.1 = F ∨ (F : ℚ) / sr * 2 ^ 32 ≤ x.2.time + 3 / 2)

theorem at_frame (hsr : 0 < sr) {F : Nat} {t : Int} (ht : |(t : ℚ) - F / sr * 2 ^ 32| ≤ 1) {x : Nat × AdsrEvent}
    (hx : Waits sr F x) : AtFrame sr x.1 x.2.time (F + frameOf t x.2.time sr) := by
  have hp : (0 : ℚ) < sr := by exact_mod_cast hsr
  obtain ⟨h1, h2⟩ := hx
  rw [abs_le] at ht
  obtain ⟨t1, t2⟩ := ht
  obtain ⟨u, hu⟩ : ∃ u : ℚ, u = ((x.2.time - t : Int) : ℚ) * sr / 2 ^ 32 := ⟨_, rfl⟩
  have hu' : (x.2.time : ℚ) = t + u / sr * 2 ^ 32 := by
    rw [hu]
    push_cast
    field_simp
    ring
  have hf : frameOf t x.2.time sr = ⌊u⌋.toNat := by rw [hu]; rfl
  rw [hf]
  refine ⟨by omega, ?_, ?_⟩
  · rcases lt_or_ge u 0 with hneg | hpos
    · have : ⌊u⌋.toNat = 0 := by
        have := Int.floor_lt.mpr (show u < ((0 : Int) : ℚ) by simpa using hneg)
        omega
      rw [this, Nat.add_zero]
      rcases h2 with h2 | h2
      · exact Or.inl h2.symm
      · exact Or.inr h2
    · right
      have h3 : ((⌊u⌋.toNat : ℕ) : ℚ) ≤ u := by
        have h4 := Int.floor_nonneg.mpr hpos
        have h5 : ((⌊u⌋.toNat : ℕ) : ℚ) = ((⌊u⌋ : Int) : ℚ) := by
          have : ((⌊u⌋.toNat : ℕ) : Int) = ⌊u⌋ := Int.toNat_of_nonneg h4
          exact_mod_cast this
        rw [h5]
        exact Int.floor_le u
      have h6 : ((⌊u⌋.toNat : ℕ) : ℚ) / sr * 2 ^ 32 ≤ u / sr * 2 ^ 32 := by gcongr
      push_cast
      rw [add_div, add_mul, hu']
      linarith
  · have h3 : u < ((⌊u⌋.toNat : ℕ) : ℚ) + 1 := by
      have h5 : ((⌊u⌋ : Int) : ℚ) ≤ ((⌊u⌋.toNat : ℕ) : ℚ) := by
        have : ⌊u⌋ ≤ ((⌊u⌋.toNat : ℕ) : Int) := Int.self_le_toNat _
        exact_mod_cast this
      linarith [Int.lt_floor_add_one u]
    have h6 : u / sr * 2 ^ 32 < (((⌊u⌋.toNat : ℕ) : ℚ) + 1) / sr * 2 ^ 32 := by gcongr
    push_cast
    rw [add_assoc, add_div, add_mul, hu']
    linarith

/-- Sorted events that take effect in the frames from `F` on. -/
theorem sorted_order (F : Nat) (t : Int) {l : List (Nat × AdsrEvent)} (hl : l.Pairwise fun a b => earlier a b = true) :
    (l.map fun x => (F + frameOf t x.2.time sr, x)).Pairwise fun x y => x.1 ≤ y.1 ∧ (y.2.1 ≤ x.1 →
      x.2.2.time < y.2.2.time ∨ (x.2.2.time = y.2.2.time ∧ x.2.2.sequenceNumber ≤ y.2.2.sequenceNumber)) := by
  rw [List.pairwise_map]
  refine hl.imp ?_
  intro a b hab
  simp only [earlier, decide_eq_true_eq] at hab
  have : frameOf t a.2.time sr ≤ frameOf t b.2.time sr := EventProcessor.frameOf_mono sr (by omega)
  dsimp only
  omega

theorem sentFrom_le (es : List (ChainEvent AdsrEvent)) : ∀ F, ∀ x ∈ sentFrom F es, F ≤ x.1 := by
  induction es with
  | nil => intro F x hx; cases hx
  | cons ev es ih =>
    intro F x hx
    cases ev with
    | change i c =>
      rw [sentFrom, List.mem_cons] at hx
      rcases hx with rfl | hx
      · exact le_refl _
      · exact ih F x hx
    | block t n =>
      have := ih (F + n) x hx
      omega

/-- The gains of an envelope, from the events `waiting` on. -/
theorem scheduled (hsr : 0 < sr) (es : List (ChainEvent AdsrEvent)) : ∀ (F : Nat) (waiting : List (Nat × AdsrEvent))
    (e : AdsrEnvelope), Paced sr F es → (∀ x ∈ waiting, Waits sr F x) →
    ∃ schedule : List (Nat × Nat × AdsrEvent), AdsrScheduled sr (waiting ++ sentFrom F es) schedule ∧
      (∀ x ∈ schedule, F ≤ x.1) ∧ adsrTrack sr (waiting.map fun x => x.2) e es =
        (adsrValues (schedule.map fun x => (x.1, x.2.2.eventType)) F (ChainEvent.total es) e).2 := by
  induction es with
  | nil =>
    intro F waiting e _ hw
    have ht : |((Timestamp.fromSamples (F : ℚ) sr : Int) : ℚ) - F / sr * 2 ^ 32| ≤ 1 := by
      have := Sampler.fromSamples_near F sr
      exact this.trans (by norm_num)
    refine ⟨(waiting.mergeSort earlier).map fun x => (F + frameOf (Timestamp.fromSamples (F : ℚ) sr) x.2.time sr, x),
      ⟨?_, ?_, sorted_order F _ (earlier_sorted _)⟩, ?_, ?_⟩
    · rw [List.map_map]
      simpa [sentFrom, Function.comp_def] using List.mergeSort_perm waiting earlier
    · intro x hx
      obtain ⟨y, hy, rfl⟩ := List.mem_map.mp hx
      exact at_frame hsr ht (hw y ((List.mergeSort_perm _ _).mem_iff.mp hy))
    · intro x hx
      obtain ⟨y, hy, rfl⟩ := List.mem_map.mp hx
      exact Nat.le_add_right _ _
    · simp [adsrTrack, ChainEvent.total, adsrValues]
  | cons ev es ih =>
    intro F waiting e hp hw
    cases ev with
    | change i x =>
      obtain ⟨sch, h1, h2, h3⟩ := ih F (waiting ++ [(F, x)]) e hp (by
        intro y hy
        rw [List.mem_append, List.mem_singleton] at hy
        rcases hy with hy | rfl
        · exact hw y hy
        · exact ⟨le_refl _, Or.inl rfl⟩)
      refine ⟨sch, ?_, h2, ?_⟩
      · rw [List.append_assoc] at h1
        exact h1
      · rw [List.map_append] at h3
        simpa [adsrTrack, ChainEvent.total, ChainEvent.frames] using h3
    | block t n =>
      obtain ⟨hn, ht, hp'⟩ := hp
      obtain ⟨order, horder⟩ : ∃ order, order = waiting.mergeSort earlier := ⟨_, rfl⟩
      have hperm : order.Perm waiting := by rw [horder]; exact List.mergeSort_perm _ _
      have hsort : order.Pairwise fun a b => earlier a b = true := by rw [horder]; exact earlier_sorted _
      obtain ⟨fin, hfin⟩ : ∃ fin, fin = t + Timestamp.fromSamples (n : ℚ) sr := ⟨_, rfl⟩
      obtain ⟨due, hdue⟩ : ∃ due, due = order.filter fun x => decide (x.2.time < fin) := ⟨_, rfl⟩
      obtain ⟨rest, hrest⟩ : ∃ rest, rest = order.filter fun x => decide (fin ≤ x.2.time) := ⟨_, rfl⟩
      have hsplit : (due ++ rest).Perm waiting := by
        refine List.Perm.trans ?_ hperm
        have : rest = order.filter fun x => !decide (x.2.time < fin) := by
          rw [hrest]
          apply List.filter_congr
          intro x _
          by_cases h : x.2.time < fin
          · have : ¬ fin ≤ x.2.time := by omega
            simp [h, this]
          · have : fin ≤ x.2.time := by omega
            simp [h, this]
        rw [this, hdue]
        exact List.filter_append_perm _ _
      have hleft : AdsrNode.left sr (waiting.map fun x => x.2) t n = rest.map fun x => x.2 := by
        rw [AdsrNode.left, ← earlier_map, ← horder, hrest, hfin, List.filter_map]
        rfl
      have hstep : AdsrNode.stepped sr (waiting.map fun x => x.2) e t n =
          adsrValues (due.map fun x => (frameOf t x.2.time sr, x.2.eventType)) 0 n e := by
        rw [AdsrNode.stepped, ← earlier_map, ← horder, hdue, hfin, List.filter_map, List.map_map]
        rfl
      obtain ⟨sch, h1, h2, h3⟩ := ih (F + n) rest (AdsrNode.stepped sr (waiting.map fun x => x.2) e t n).1 hp' (by
        intro x hx
        rw [hrest, List.mem_filter] at hx
        obtain ⟨hx, hx'⟩ := hx
        have hx' := of_decide_eq_true hx'
        have := hw x (hperm.mem_iff.mp hx)
        refine ⟨by have := this.1; omega, Or.inr ?_⟩
        have hn' := Sampler.fromSamples_near n sr
        rw [abs_le] at hn' ht
        have hle : ((fin : Int) : ℚ) ≤ x.2.time := by exact_mod_cast hx'
        rw [hfin] at hle
        push_cast at hle ⊢
        rw [add_div, add_mul]
        linarith [hn'.1, ht.1])
      have hlt : ∀ x ∈ due, frameOf t x.2.time sr < n := by
        intro x hx
        rw [hdue, List.mem_filter] at hx
        have hx' := of_decide_eq_true hx.2
        exact EventProcessor.frameOf_lt hsr hn (by rw [hfin] at hx'; exact hx')
      refine ⟨(due.map fun x => (F + frameOf t x.2.time sr, x)) ++ sch, ⟨?_, ?_, ?_⟩, ?_, ?_⟩
      · rw [List.map_append, List.map_map]
        have : (due.map ((fun x : Nat × Nat × AdsrEvent => x.2) ∘ fun x => (F + frameOf t x.2.time sr, x))) = due := by
          simp [Function.comp_def]
        rw [this]
        refine (List.Perm.append_left due h1.all).trans ?_
        rw [← List.append_assoc]
        exact hsplit.append_right _
      · intro x hx
        rw [List.mem_append] at hx
        rcases hx with hx | hx
        · obtain ⟨y, hy, rfl⟩ := List.mem_map.mp hx
          exact at_frame hsr ht (hw y (hsplit.mem_iff.mp (List.mem_append_left _ hy)))
        · exact h1.frames x hx
      · rw [List.pairwise_append]
        refine ⟨sorted_order F t (by rw [hdue]; exact hsort.filter _), h1.order, ?_⟩
        intro x hx y hy
        obtain ⟨z, hz, rfl⟩ := List.mem_map.mp hx
        have g1 := hlt z hz
        have g2 := h2 y hy
        dsimp only
        refine ⟨by omega, fun hy' => Or.inl ?_⟩
        have hm : y.2 ∈ rest ++ sentFrom (F + n) es := h1.all.mem_iff.mp (List.mem_map_of_mem hy)
        rw [List.mem_append] at hm
        rcases hm with hm | hm
        · rw [hrest, List.mem_filter] at hm
          rw [hdue, List.mem_filter] at hz
          have k1 := of_decide_eq_true hm.2
          have k2 := of_decide_eq_true hz.2
          omega
        · have := sentFrom_le es _ _ hm
          omega
      · intro x hx
        rw [List.mem_append] at hx
        rcases hx with hx | hx
        · obtain ⟨y, hy, rfl⟩ := List.mem_map.mp hx
          exact Nat.le_add_right _ _
        · have := h2 x hx
          omega
      · rw [AdsrNode.track_block, hleft, h3, hstep]
        have htot : ChainEvent.total (.block t n :: es) = n + ChainEvent.total es := by
          simp [ChainEvent.total, ChainEvent.frames]
        rw [htot, List.map_append, adsrValues_split]
        · have hs := adsrValues_shift (due.map fun x => (frameOf t x.2.time sr, x.2.eventType)) F n 0 e
          simp only [List.map_map, Nat.add_zero] at hs ⊢
          have hc : ((fun x : Nat × Nat × AdsrEvent => (x.1, x.2.2.eventType)) ∘
              fun x => (F + frameOf t x.2.time sr, x)) = ((fun x : Nat × AdsrEventType => (F + x.1, x.2)) ∘
              fun x : Nat × AdsrEvent => (frameOf t x.2.time sr, x.2.eventType)) := rfl
          rw [hc, hs]
        · intro x hx
          rw [List.map_map] at hx
          obtain ⟨y, hy, rfl⟩ := List.mem_map.mp hx
          have := hlt y hy
          simp only [Function.comp_apply]
          omega
        · intro x hx
          obtain ⟨y, hy, rfl⟩ := List.mem_map.mp hx
          exact h2 y hy

/-! ## Sessions -/

theorem paced_append {C : Type} (as bs : List (ChainEvent C)) : ∀ F, Paced sr F as →
    Paced sr (F + ChainEvent.total as) bs → Paced sr F (as ++ bs) := by
  induction as with
  | nil => intro F _ h; simpa [ChainEvent.total] using h
  | cons a as ih =>
    intro F h1 h2
    cases a with
    | change i c => exact ih F h1 (by simpa [ChainEvent.total, ChainEvent.frames] using h2)
    | block t n =>
      refine ⟨h1.1, h1.2.1, ih _ h1.2.2 ?_⟩
      simpa [ChainEvent.total, ChainEvent.frames, Nat.add_assoc] using h2

theorem sentFrom_append (as bs : List (ChainEvent AdsrEvent)) : ∀ F,
    sentFrom F (as ++ bs) = sentFrom F as ++ sentFrom (F + ChainEvent.total as) bs := by
  induction as with
  | nil => intro F; simp [sentFrom, ChainEvent.total]
  | cons a as ih =>
    intro F
    cases a with
    | change i c => simp [sentFrom, ih, ChainEvent.total, ChainEvent.frames]
    | block t n => simp [sentFrom, ih, ChainEvent.total, ChainEvent.frames, Nat.add_assoc]

theorem sentFrom_changes (i : Id) (F : Nat) (cs : List (Id × MixedRequest)) :
    sentFrom F ((cs.map fun x => (.change x.1 x.2 : ChainEvent MixedRequest)).filterMap
      (ChainEvent.seen i MixedRequest.adsr?)) =
      cs.filterMap fun x => if x.1 = i then x.2.adsr?.map fun e => (F, e) else none := by
  induction cs with
  | nil => rfl
  | cons c cs ih =>
    rw [List.map_cons]
    by_cases hc : c.1 = i
    · cases ho : c.2.adsr? with
      | none =>
        rw [List.filterMap_cons_none (by simp [ChainEvent.seen, ho]), List.filterMap_cons_none (by simp [ho]), ih]
      | some e =>
        rw [List.filterMap_cons_some (f := ChainEvent.seen i MixedRequest.adsr?) (b := .change i e)
            (by simp [ChainEvent.seen, hc, ho]),
          List.filterMap_cons_some (f := fun x : Id × MixedRequest =>
            if x.1 = i then x.2.adsr?.map fun e => (F, e) else none) (b := (F, e)) (by simp [hc, ho]), sentFrom, ih]
    · rw [List.filterMap_cons_none (by simp [ChainEvent.seen, hc]), List.filterMap_cons_none (by simp [hc]), ih]

theorem sentFrom_blocks (i : Id) (bs : List (Int × Nat)) : ∀ F,
    sentFrom F ((bs.map fun b => (.block b.1 b.2 : ChainEvent MixedRequest)).filterMap
      (ChainEvent.seen i MixedRequest.adsr?)) = [] := by
  induction bs with
  | nil => intro F; rfl
  | cons b bs ih =>
    intro F
    rw [List.map_cons, List.filterMap_cons_some (f := ChainEvent.seen i MixedRequest.adsr?) (b := .block b.1 b.2) rfl]
    exact ih _

theorem paced_changes {C D : Type} (i : Id) (own : D → Option C) (F : Nat) (cs : List (Id × D)) :
    Paced sr F ((cs.map fun x => (.change x.1 x.2 : ChainEvent D)).filterMap (ChainEvent.seen i own)) := by
  induction cs with
  | nil => trivial
  | cons c cs ih =>
    rw [List.map_cons]
    cases hs : ChainEvent.seen i own (.change c.1 c.2) with
    | none => rw [List.filterMap_cons_none hs]; exact ih
    | some e =>
      rw [List.filterMap_cons_some (f := ChainEvent.seen i own) hs]
      simp only [ChainEvent.seen] at hs
      split at hs
      · cases ho : own c.2 with
        | none => simp [ho] at hs
        | some d =>
          simp only [ho, Option.map_some, Option.some.injEq] at hs
          subst hs
          exact ih
      · cases hs

theorem paced_call {C D : Type} {full first : Nat} {now : Int} (hnow : |(now : ℚ) - first / sr * 2 ^ 32| ≤ 1 / 2)
    (i : Id) (own : D → Option C) (tiles : List (Nat × Nat)) : ∀ a b, Tiles full a b tiles →
    Paced sr (first + a) (((tiles.map fun b => (Timestamp.incrementedBySamples now b.1 sr, b.2)).map
      fun b => (.block b.1 b.2 : ChainEvent D)).filterMap (ChainEvent.seen i own)) := by
  induction tiles with
  | nil => intro a b _; trivial
  | cons x xs ih =>
    intro a b h
    obtain ⟨h1, h2, h3, h4, h5⟩ := h
    subst h1
    rw [List.map_cons, List.map_cons, List.filterMap_cons_some (f := ChainEvent.seen i own)
      (b := .block (Timestamp.incrementedBySamples now x.1 sr) x.2) rfl]
    refine ⟨h2, ?_, ?_⟩
    · have h6 := Sampler.fromSamples_near x.1 sr
      have e : Timestamp.incrementedBySamples now x.1 sr = now + Timestamp.fromSamples (x.1 : ℚ) sr := rfl
      rw [abs_le] at hnow h6 ⊢
      rw [e]
      push_cast
      rw [add_div, add_mul]
      constructor <;> linarith [hnow.1, hnow.2, h6.1, h6.2]
    · have := ih _ _ h5
      rwa [← Nat.add_assoc] at this

/-- The blocks of a session are at their times. -/
theorem history_paced {P : Type} {full : Nat} (hsr : 0 < sr) (hlt : sr < 2 ^ 33)
    {changes : Nat → List (Id × MixedRequest)} {ks : List (Call ℝ P MixedRequest)} {es : List (ChainEvent MixedRequest)}
    (h : ChainHistory full sr changes ks es) (i : Id) :
    Paced sr 0 (es.filterMap (ChainEvent.seen i MixedRequest.adsr?)) ∧
      sentFrom 0 (es.filterMap (ChainEvent.seen i MixedRequest.adsr?)) = adsrSent changes i ks := by
  induction h with
  | nil => exact ⟨trivial, rfl⟩
  | @snoc ks es k bs h hb ih =>
    have ht : ChainEvent.total (es.filterMap (ChainEvent.seen i MixedRequest.adsr?)) = framesIn ks := by
      rw [total_seen, Chain.history_total h]
    have ht' : ChainEvent.total (((changes ks.length).map fun x => (.change x.1 x.2 : ChainEvent MixedRequest)).filterMap
        (ChainEvent.seen i MixedRequest.adsr?)) = 0 := by
      rw [total_seen]
      simp [ChainEvent.total, ChainEvent.frames, Function.comp_def]
    rw [List.filterMap_append, List.filterMap_append]
    constructor
    · refine paced_append _ _ 0 (paced_append _ _ 0 ih.1 (paced_changes ..)) ?_
      obtain ⟨now, tiles, h1, h2, rfl⟩ := hb
      obtain rfl := Gain.nearest_unique hsr hlt h1
      have := paced_call (Sampler.fromSamples_near (framesIn ks) sr) i MixedRequest.adsr? tiles 0 _ h2
      have e : ChainEvent.total (es.filterMap (ChainEvent.seen i MixedRequest.adsr?) ++
          ((changes ks.length).map fun x => (.change x.1 x.2 : ChainEvent MixedRequest)).filterMap
            (ChainEvent.seen i MixedRequest.adsr?)) = framesIn ks := by
        have happ : ∀ as bs : List (ChainEvent AdsrEvent),
          ChainEvent.total (as ++ bs) = ChainEvent.total as + ChainEvent.total bs := by
          intro as bs; simp [ChainEvent.total]
        rw [happ, ht, ht', Nat.add_zero]
      rw [e, Nat.zero_add]
      exact this
    · rw [sentFrom_append, sentFrom_append, sentFrom_blocks, List.append_nil, sentFrom_changes, ih.2, ht, Nat.zero_add,
        adsrSent, adsrSent, List.length_append, List.length_singleton, List.range_succ, List.flatMap_append]
      congr 1
      · rw [List.flatMap_def, List.flatMap_def]
        congr 1
        apply List.map_congr_left
        intro j hj
        rw [List.mem_range] at hj
        rw [List.take_append_of_le_length (by omega)]
      · simp

/-- The gains of an envelope in a session. -/
theorem session (hsr : 0 < sr) (hlt : sr < 2 ^ 33) {P : Type} {full : Nat} {changes : Nat → List (Id × MixedRequest)}
    {ks : List (Call ℝ P MixedRequest)} {es : List (ChainEvent MixedRequest)} (h : ChainHistory full sr changes ks es)
    (i : Id) : ∃ schedule, AdsrScheduled sr (adsrSent changes i ks) schedule ∧
      ∀ F < framesIn ks, NodeKind.envelope sr i es F =
        (adsrValues (schedule.map fun x => (x.1, x.2.2.eventType)) 0 (framesIn ks)
          (AdsrEnvelope.new sr 0 0 (Level.fromDb 0) 0)).2.getD F 0 := by
  obtain ⟨h1, h2⟩ := history_paced hsr hlt h i
  obtain ⟨sch, g1, g2, g3⟩ := scheduled hsr _ 0 [] (AdsrEnvelope.new sr 0 0 (Level.fromDb 0) 0) h1 (by simp)
  rw [List.nil_append, h2] at g1
  refine ⟨sch, g1, ?_⟩
  intro F _
  rw [total_seen, Chain.history_total h] at g3
  rw [NodeKind.envelope]
  simp only [List.map_nil] at g3
  rw [g3]

end AdsrSchedule
end Rawdio
