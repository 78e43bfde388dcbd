import Mathlib.Tactic.Ring
import Mathlib.Tactic.Linarith
import Mathlib.Tactic.Positivity
import Mathlib.Tactic.FieldSimp
import Verif.Lemmas.Timestamp
import Verif.Spec.Events

/-! # Lemmas about timed events -/

namespace Rawdio
namespace EventProcessor

open TimedEvent

variable {E : Type} [TimedEvent E]

theorem asSamples_eq (t : Int) (sr : Nat) : Timestamp.asSamples t sr = (t : ℚ) * sr / 2 ^ 32 := by
  unfold Timestamp.asSamples Timestamp.asSeconds Timestamp.one
  ring

theorem frameOf_mono {start t u : Int} (sr : Nat) (h : t ≤ u) : frameOf start t sr ≤ frameOf start u sr := by
  unfold frameOf
  apply Int.toNat_le_toNat
  apply Int.floor_mono
  apply div_le_div_of_nonneg_right _ (by norm_num)
  apply mul_le_mul_of_nonneg_right _ (Nat.cast_nonneg sr)
  exact_mod_cast (by omega : t - start ≤ u - start)

/-- The frame of a time in a block is one of the block's. -/
theorem frameOf_lt {start t : Int} {sr n : Nat} (hsr : 0 < sr) (hn : 0 < n)
    (h : t < Timestamp.incrementedBySamples start n sr) : frameOf start t sr < n := by
  have hp : (0 : ℚ) < sr := by exact_mod_cast hsr
  unfold frameOf
  suffices ((t - start : Int) : ℚ) * sr / 2 ^ 32 < n by
    have := Int.floor_lt.mpr (show ((t - start : Int) : ℚ) * sr / 2 ^ 32 < ((n : Int) : ℚ) by
      exact_mod_cast this)
    omega
  have he := Timestamp.fromSamples_error (n : ℚ) sr
  rw [abs_le] at he
  unfold Timestamp.incrementedBySamples at h
  have h1 : t - start ≤ Timestamp.fromSamples (n : ℚ) sr - 1 := by omega
  have h2 : ((t - start : Int) : ℚ) ≤ (Timestamp.fromSamples (n : ℚ) sr : ℚ) - 1 := by exact_mod_cast h1
  have h3 : ((t - start : Int) : ℚ) < (n : ℚ) / sr * Timestamp.one := by linarith [he.2]
  rw [div_lt_iff₀ (by norm_num)]
  have h4 := mul_lt_mul_of_pos_right h3 hp
  have h5 : (n : ℚ) / sr * Timestamp.one * sr = n * 2 ^ 32 := by
    unfold Timestamp.one; field_simp; norm_num
  rw [h5] at h4
  exact h4

/-- How far the time counted by a node can be from its frame. -/
structure Clock (start : Int) (sr position : Nat) (current : Int) : Prop where
  ge : start ≤ current
  le : ((current - start : Int) : ℚ) ≤ (position : ℚ) / sr * 2 ^ 32 + position / 2

theorem Clock.start (start : Int) (sr : Nat) : Clock start sr 0 start :=
  ⟨le_refl _, by simp⟩

theorem Clock.advance {start : Int} {sr position : Nat} {current : Int}
    (h : Clock start sr position current) (d : Nat) :
    Clock start sr (position + d) (current + Timestamp.fromSamples (d : ℚ) sr) := by
  refine ⟨by have := Timestamp.fromSamples_nonneg d sr; have := h.ge; omega, ?_⟩
  rcases Nat.eq_zero_or_pos d with rfl | hd
  · have := h.le
    simpa [Timestamp.fromSamples_zero] using this
  · have he := Timestamp.fromSamples_error (d : ℚ) sr
    rw [abs_le] at he
    have h1 : (1 : ℚ) ≤ d := by exact_mod_cast hd
    have h2 := h.le
    unfold Timestamp.one at he
    push_cast at h2 ⊢
    have h3 : ((position : ℚ) + d) / sr * 2 ^ 32 = position / sr * 2 ^ 32 + d / sr * 4294967296 := by
      ring
    rw [h3]
    linarith [he.2]

/-- The clock is within its frame, for blocks that are not too long. -/
theorem Clock.floor {start : Int} {sr position n : Nat} {current : Int}
    (h : Clock start sr position current) (hsr : 0 < sr) (hn : position < n) (hlen : n * sr ≤ 2 ^ 33) :
    ⌊Timestamp.asSamples (current - start) sr⌋ ≤ position := by
  have hp : (0 : ℚ) < sr := by exact_mod_cast hsr
  have h1 : (position : ℚ) * sr < 2 ^ 33 := by
    have : position * sr < 2 ^ 33 :=
      lt_of_lt_of_le (Nat.mul_lt_mul_of_pos_right hn hsr) hlen
    exact_mod_cast this
  have h2 : Timestamp.asSamples (current - start) sr < (position : ℚ) + 1 := by
    rw [asSamples_eq, div_lt_iff₀ (by norm_num)]
    have h3 := mul_le_mul_of_nonneg_right h.le hp.le
    have h4 : ((position : ℚ) / sr * 2 ^ 32 + position / 2) * sr =
        position * 2 ^ 32 + position * sr / 2 := by field_simp
    rw [h4] at h3
    linarith
  have := Int.floor_lt.mpr (show Timestamp.asSamples (current - start) sr < ((position + 1 : Int) : ℚ) by
    push_cast; exact h2)
  omega

/-- The frame of an event does not depend on what happened before it. -/
theorem framePosition_eq {start : Int} {sr position n : Nat} {current : Int}
    (h : Clock start sr position current) (hsr : 0 < sr) (hn : position < n) (hlen : n * sr ≤ 2 ^ 33)
    {t : Int} (ht : position ≤ frameOf start t sr) :
    framePosition start current t sr = frameOf start t sr := by
  unfold framePosition
  rcases le_total current t with hle | hle
  · rw [max_eq_left hle, asSamples_eq]; rfl
  · rw [max_eq_right hle]
    have h1 := h.floor hsr hn hlen
    have h2 : frameOf start t sr ≤ ⌊Timestamp.asSamples (current - start) sr⌋.toNat := by
      rw [asSamples_eq]
      exact frameOf_mono sr hle
    omega

theorem before_iff (a b : E) : before a b = true ↔
    time a < time b ∨ (time a = time b ∧ sequenceNumber a ≤ sequenceNumber b) := by
  unfold before; simp

theorem inTimeOrder_time {es : List E} (h : InTimeOrder es) :
    es.Pairwise (fun a b => TimedEvent.time a ≤ TimedEvent.time b) :=
  h.imp (by intro a b h; omega)

/-- The loop follows the schedule. -/
theorem loop_play {σ : Type} (render : σ → Nat → Nat → Res σ) (apply : σ → E → Int → Res σ) {sr : Nat}
    (hsr : 0 < sr) (start : Int) {n : Nat} (hlen : n * sr ≤ 2 ^ 33) :
    ∀ (pending : List E) (position : Nat) (current : Int) (s : σ), position < n →
    Clock start sr position current → pending.Pairwise (fun a b => time a ≤ time b) →
    (∀ e ∈ pending, position ≤ frameOf start (time e) sr) →
    loop render apply sr start n pending position current s =
      (playEvents render apply sr start n
        (pending.filter (fun e => decide (time e < Timestamp.incrementedBySamples start n sr)))
        position current s).bind (fun s => .ok (s,
          pending.filter (fun e => !decide (time e < Timestamp.incrementedBySamples start n sr)))) := by
  intro pending
  induction pending with
  | nil =>
    intro position current s hpos _ _ _
    rw [loop, if_pos hpos]
    simp only [nextEvent, nextEventBefore, List.filter_nil, playEvents]
    rfl
  | cons e es ih =>
    intro position current s hpos hclock hsort hge
    obtain ⟨hs1, hs2⟩ := List.pairwise_cons.mp hsort
    rw [loop, if_pos hpos]
    by_cases ht : time e < Timestamp.incrementedBySamples start n sr
    · have hne : nextEvent sr (e :: es) start current n =
          (framePosition start current (time e) sr, some e, es) := by
        simp [nextEvent, nextEventBefore, ht]
      have hfe := hge e List.mem_cons_self
      have hf : framePosition start current (time e) sr = frameOf start (time e) sr :=
        framePosition_eq hclock hsr hpos hlen hfe
      have hlt : frameOf start (time e) sr < n := frameOf_lt hsr (by omega) ht
      have hstep : ∀ s, loop render apply sr start n es (frameOf start (time e) sr)
          (Timestamp.incrementedBySamples current (frameOf start (time e) sr - position) sr) s = _ :=
        fun s => ih (frameOf start (time e) sr) _ s hlt (by
          have := hclock.advance (frameOf start (time e) sr - position)
          rw [Nat.add_sub_cancel' hfe] at this
          exact this) hs2 (fun x hx => frameOf_mono sr (hs1 x hx))
      rw [List.filter_cons_of_pos (by simpa using ht), List.filter_cons_of_neg (by simpa using ht),
        playEvents]
      split
      · rename_i k e' rest h'
        rw [hne] at h'
        injection h' with h1 h2
        injection h2 with h2 h3
        injection h2 with h2
        subst h1 h2 h3
        rw [hf, if_neg (by omega)]
        cases hr : render s position (frameOf start (time e) sr - position) with
        | error f => rfl
        | ok s1 =>
          simp only [bind, Except.bind]
          cases ha : apply s1 e (Timestamp.incrementedBySamples current
              (frameOf start (time e) sr - position) sr) with
          | error f =>
            unfold Timestamp.incrementedBySamples at ha
            rw [ha]
          | ok s2 =>
            have := hstep s2
            unfold Timestamp.incrementedBySamples at ha this ⊢
            rw [ha]
            exact this
      · rename_i k rest h'
        rw [hne] at h'
        injection h' with h1 h2
        injection h2 with h2 h3
        cases h2
    · have hne : nextEvent sr (e :: es) start current n = (n, none, e :: es) := by
        simp [nextEvent, nextEventBefore, ht]
      have hall : ∀ x ∈ e :: es, ¬ time x < Timestamp.incrementedBySamples start n sr := by
        intro x hx
        rcases List.mem_cons.mp hx with rfl | hx
        · exact ht
        · have := hs1 x hx; omega
      have hf1 : (e :: es).filter (fun e => decide (time e < Timestamp.incrementedBySamples start n sr)) =
          [] := by
        rw [List.filter_eq_nil_iff]
        intro x hx
        simpa using hall x hx
      have hf2 : (e :: es).filter (fun e => !decide (time e < Timestamp.incrementedBySamples start n sr)) =
          e :: es := by
        rw [List.filter_eq_self]
        intro x hx
        simpa using hall x hx
      rw [hf1, hf2]
      split
      · rename_i k e' rest h'
        rw [hne] at h'
        injection h' with h1 h2
        injection h2 with h2 h3
        cases h2
      · rename_i k rest h'
        rw [hne] at h'
        injection h' with h1 h2
        injection h2 with h2 h3
        subst h1 h3
        rfl

theorem receive_sorted (p : EventProcessor E) (h : InTimeOrder p.pending) :
    InTimeOrder (receiveEvents p).pending := by
  unfold receiveEvents
  split
  · exact h
  · have := List.pairwise_mergeSort (le := before (E := E))
      (by
        intro a b c h1 h2
        rw [before_iff] at *
        omega)
      (by
        intro a b
        rw [Bool.or_eq_true, before_iff, before_iff]
        omega)
      (p.channel.foldl push p.pending)
    exact this.imp (fun h => (before_iff _ _).mp h)

theorem foldl_push (es : List E) (h : ∀ e ∈ es, clearsQueue e = false) :
    ∀ pending : List E, es.foldl push pending = pending ++ es := by
  induction es with
  | nil => intro p; simp
  | cons e es ih =>
    intro p
    have : push p e = p ++ [e] := by
      unfold push; rw [if_neg (by rw [h e List.mem_cons_self]; simp)]
    rw [List.foldl_cons, ih (fun x hx => h x (List.mem_cons_of_mem _ hx)), this]
    simp

end EventProcessor
end Rawdio
