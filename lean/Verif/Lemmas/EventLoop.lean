import Verif.Lemmas.Events

/-! # Running the event loop with a node whose rendering is given with a bound on its steps -/

namespace Rawdio
namespace EventProcessor

open TimedEvent

variable {E : Type} [TimedEvent E] {σ : Type}

/-- More steps do not change a result. -/
def FuelMono (render : Nat → σ → Nat → Nat → Res σ) : Prop :=
  ∀ f s p k r, render f s p k = .ok r → ∀ more, render (f + more) s p k = .ok r

theorem playEvents_mono {render : Nat → σ → Nat → Nat → Res σ} (hm : FuelMono render)
    (apply : σ → E → Int → Res σ) (sr : Nat) (start : Int) (n f : Nat) (es : List E) :
    ∀ (pos : Nat) (cur : Int) (s r : σ), playEvents (render f) apply sr start n es pos cur s = .ok r →
    ∀ more, playEvents (render (f + more)) apply sr start n es pos cur s = .ok r := by
  induction es with
  | nil => intro pos cur s r h more; exact hm _ _ _ _ _ h more
  | cons e es ih =>
    intro pos cur s r h more
    simp only [playEvents] at h ⊢
    cases hr : render f s pos (frameOf start (time e) sr - pos) with
    | error x => rw [hr] at h; cases h
    | ok s1 =>
      rw [hr] at h
      rw [hm _ _ _ _ _ hr more]
      simp only [Except.bind] at h ⊢
      cases ha : apply s1 e (cur + Timestamp.fromSamples ((frameOf start (time e) sr - pos : Nat) : ℚ) sr) with
      | error x => rw [ha] at h; cases h
      | ok s2 =>
        rw [ha] at h
        exact ih _ _ _ _ h more

theorem playEvents_inv {render : Nat → σ → Nat → Nat → Res σ} (hm : FuelMono render)
    (apply : σ → E → Int → Res σ) (sr : Nat) (start : Int) (n : Nat) (Inv : Nat → σ → Prop)
    (hr : ∀ s p k, Inv p s → p + k ≤ n → ∃ f s', render f s p k = .ok s' ∧ Inv (p + k) s')
    (es : List E)
    (ha : ∀ s, ∀ e ∈ es, ∀ t, Inv (frameOf start (time e) sr) s →
      ∃ s', apply s e t = .ok s' ∧ Inv (frameOf start (time e) sr) s') :
    ∀ (pos : Nat) (cur : Int) (s : σ), pos ≤ n → Inv pos s →
    es.Pairwise (fun a b => time a ≤ time b) →
    (∀ e ∈ es, pos ≤ frameOf start (time e) sr ∧ frameOf start (time e) sr < n) →
    ∃ f s', playEvents (render f) apply sr start n es pos cur s = .ok s' ∧ Inv n s' := by
  induction es with
  | nil =>
    intro pos cur s hpos hi _ _
    obtain ⟨f, s', h1, h2⟩ := hr s pos (n - pos) hi (by omega)
    rw [Nat.add_sub_cancel' hpos] at h2
    exact ⟨f, s', h1, h2⟩
  | cons e es ih =>
    intro pos cur s hpos hi hsort hb
    obtain ⟨hs1, hs2⟩ := List.pairwise_cons.mp hsort
    obtain ⟨b1, b2⟩ := hb e List.mem_cons_self
    obtain ⟨f, s1, h1, h2⟩ := hr s pos (frameOf start (time e) sr - pos) hi (by omega)
    rw [Nat.add_sub_cancel' b1] at h2
    obtain ⟨s2, h3, h4⟩ := ha s1 e List.mem_cons_self
      (cur + Timestamp.fromSamples ((frameOf start (time e) sr - pos : Nat) : ℚ) sr) h2
    obtain ⟨g, s3, h5, h6⟩ := ih (fun s x hx => ha s x (List.mem_cons_of_mem _ hx))
      (frameOf start (time e) sr)
      (cur + Timestamp.fromSamples ((frameOf start (time e) sr - pos : Nat) : ℚ) sr) s2 b2.le h4 hs2
      (fun x hx => ⟨frameOf_mono sr (hs1 x hx), (hb x (List.mem_cons_of_mem _ hx)).2⟩)
    refine ⟨f + g, s3, ?_, h6⟩
    simp only [playEvents]
    rw [hm _ _ _ _ _ h1 g]
    simp only [Except.bind]
    rw [h3]
    have := playEvents_mono hm apply sr start n g es _ _ _ _ h5 f
    rw [Nat.add_comm g f] at this
    exact this

/-- A block of a node for which rendering and events keep an invariant returns and keeps it. -/
theorem loop_inv {render : Nat → σ → Nat → Nat → Res σ} (hm : FuelMono render)
    (apply : σ → E → Int → Res σ) {sr : Nat} (hsr : 0 < sr) (start : Int) {n : Nat} (hn : 0 < n)
    (hlen : n * sr ≤ 2 ^ 33) (Inv : Nat → σ → Prop)
    (hr : ∀ s p k, Inv p s → p + k ≤ n → ∃ f s', render f s p k = .ok s' ∧ Inv (p + k) s')
    (pending : List E) (hs : InTimeOrder pending)
    (ha : ∀ s, ∀ e ∈ pending, time e < Timestamp.incrementedBySamples start n sr →
      ∀ t, Inv (frameOf start (time e) sr) s →
      ∃ s', apply s e t = .ok s' ∧ Inv (frameOf start (time e) sr) s') (s : σ) (hi : Inv 0 s) :
    ∃ f s', loop (render f) apply sr start n pending 0 start s = .ok (s',
        pending.filter (fun e => !decide (time e < Timestamp.incrementedBySamples start n sr))) ∧
      Inv n s' := by
  have hf := (inTimeOrder_time hs).filter
    (fun e => decide (time e < Timestamp.incrementedBySamples start n sr))
  obtain ⟨f, s', h1, h2⟩ := playEvents_inv hm apply sr start n Inv hr _ (fun s e he t hi => by
      rw [List.mem_filter] at he
      exact ha s e he.1 (by simpa using he.2) t hi) 0 start s (Nat.zero_le _) hi hf (fun e he => by
      rw [List.mem_filter] at he
      exact ⟨Nat.zero_le _, frameOf_lt hsr hn (by simpa using he.2)⟩)
  refine ⟨f, s', ?_, h2⟩
  rw [loop_play (render f) apply hsr start hlen pending 0 start s hn (Clock.start start sr)
    (inTimeOrder_time hs) (fun _ _ => Nat.zero_le _), h1]
  rfl

theorem loop_mono {render : Nat → σ → Nat → Nat → Res σ} (hm : FuelMono render)
    (apply : σ → E → Int → Res σ) (sr : Nat) (start : Int) (n f : Nat) (pending : List E) :
    ∀ (pos : Nat) (cur : Int) (s : σ) (r : σ × List E),
    loop (render f) apply sr start n pending pos cur s = .ok r →
    ∀ more, loop (render (f + more)) apply sr start n pending pos cur s = .ok r := by
  induction pending with
  | nil =>
    intro pos cur s r h more
    rw [loop] at h ⊢
    split
    · rename_i hp
      rw [if_pos hp] at h
      simp only [nextEvent, nextEventBefore, bind] at h ⊢
      cases hr : render f s pos (n - pos) with
      | error x => rw [hr] at h; cases h
      | ok s1 => rw [hr] at h; rw [hm _ _ _ _ _ hr more]; exact h
    · rename_i hp
      rw [if_neg hp] at h
      exact h
  | cons e es ih =>
    intro pos cur s r h more
    rw [loop] at h ⊢
    split
    · rename_i hp
      rw [if_pos hp] at h
      by_cases ht : time e < Timestamp.incrementedBySamples start n sr
      · have hne : nextEvent sr (e :: es) start cur n =
            (framePosition start cur (time e) sr, some e, es) := by
          simp [nextEvent, nextEventBefore, ht]
        split
        · rename_i k e' rest h'
          split at h
          · rename_i k2 e2 rest2 h2
            rw [hne] at h' h2
            cases h'
            cases h2
            split
            · rename_i h3; rw [if_pos h3] at h; exact h
            · rename_i h3
              rw [if_neg h3] at h
              simp only [bind] at h ⊢
              cases hr : render f s pos (framePosition start cur (time e) sr - pos) with
              | error x => rw [hr] at h; cases h
              | ok s1 =>
                rw [hr] at h
                rw [hm _ _ _ _ _ hr more]
                simp only [Except.bind] at h ⊢
                cases ha : apply s1 e (Timestamp.incrementedBySamples cur
                    (framePosition start cur (time e) sr - pos) sr) with
                | error x => rw [ha] at h; cases h
                | ok s2 =>
                  rw [ha] at h
                  exact ih _ _ _ _ h more
          · rename_i h2
            rw [hne] at h2
            cases h2
        · rename_i h'
          rw [hne] at h'
          cases h'
      · have hne : nextEvent sr (e :: es) start cur n = (n, none, e :: es) := by
          simp [nextEvent, nextEventBefore, ht]
        split
        · rename_i h'
          rw [hne] at h'
          cases h'
        · rename_i k rest h'
          split at h
          · rename_i h2
            rw [hne] at h2
            cases h2
          · rename_i k2 rest2 h2
            rw [hne] at h' h2
            cases h'
            cases h2
            simp only [bind] at h ⊢
            cases hr : render f s pos (n - pos) with
            | error x => rw [hr] at h; cases h
            | ok s1 => rw [hr] at h; rw [hm _ _ _ _ _ hr more]; exact h
    · rename_i hp
      rw [if_neg hp] at h
      exact h

end EventProcessor
end Rawdio
