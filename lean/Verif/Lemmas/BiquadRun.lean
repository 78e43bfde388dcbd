import Verif.Lemmas.Biquad
import Verif.Lemmas.Pan
import Verif.Lemmas.PoolBuf
import Verif.Props.Buffers2

/-! # The processor follows the difference equation -/

namespace Rawdio
namespace Biquad

open Buf

/-- What the delays of a channel hold before time `t`. -/
noncomputable def history (x y : ℕ → ℝ) : ℕ → Delays
  | 0 => ⟨0, 0, 0, 0⟩
  | 1 => ⟨flush (x 0), 0, flush (y 0), 0⟩
  | t + 2 => ⟨flush (x (t + 1)), flush (x t), flush (y (t + 1)), flush (y t)⟩

theorem out_history (c : ℕ → Coefficients) (x : ℕ → ℝ) (t : ℕ) :
    out (c t) (history x (response c x) t) (x t) = response c x t := by
  match t with
  | 0 => simp [out, history, response]
  | 1 =>
    rw [response]
    simp only [out, history]
    ring_nf
  | t + 2 => rw [response]; simp only [out, history]

theorem history_next (x y : ℕ → ℝ) (t : ℕ) : (history x y t).next (x t) (y t) = history x y (t + 1) := by
  match t with
  | 0 => simp [Delays.next, history, denormal_eq, flush_zero]
  | 1 => simp [Delays.next, history, denormal_eq, flush_zero, flush_flush]
  | t + 2 => simp [Delays.next, history, denormal_eq, flush_flush]

/-- The delays of all channels while the first `n` of them have advanced to the next time. -/
noncomputable def histories (x y : ℕ → ℕ → ℝ) (channels t n : ℕ) : List Delays :=
  (List.range channels).map (fun c => if c < n then history (x c) (y c) (t + 1) else history (x c) (y c) t)

theorem histories_full (x y : ℕ → ℕ → ℝ) (channels t : ℕ) :
    histories x y channels t channels = histories x y channels (t + 1) 0 := by
  apply List.map_congr_left
  intro c hc
  rw [if_pos (List.mem_range.mp hc), if_neg (by omega)]

theorem histories_set (x y : ℕ → ℕ → ℝ) (channels t n : ℕ) :
    (histories x y channels t n).set n (history (x n) (y n) (t + 1)) = histories x y channels t (n + 1) := by
  apply List.ext_getElem
  · simp [histories]
  · intro i h1 h2
    rw [List.getElem_set]
    simp only [histories, List.getElem_map, List.getElem_range]
    by_cases h : n = i
    · subst h
      rw [if_pos rfl, if_pos (by omega)]
    · rw [if_neg h]
      by_cases h' : i < n
      · rw [if_pos h', if_pos (by omega)]
      · rw [if_neg h', if_neg (by omega)]

theorem step_ok {α β : Type} (a : α) (f : α → Res β) : ((Except.ok a : Res α) >>= f) = f a := rfl

theorem index_of_get? {S : Type} {l : List S} {i : Nat} {v : S} (h : l[i]? = some v) : index l i = .ok v := by
  obtain ⟨h1, h2⟩ := List.getElem?_eq_some_iff.mp h
  rw [index_ok h1, h2]

/-- The channels of one frame. -/
theorem channels_ok (cs : ℕ → Coefficients) (x : ℕ → ℕ → ℝ) (channels t f : ℕ) (input : Buf ℝ) (p : Processor)
    (output : Buf ℝ) (hp : p.coefficients = cs t)
    (hd : p.delays = histories x (fun c => response cs (x c)) channels t 0)
    (hi : ∀ c < channels, input.getSample ⟨c, f⟩ = .ok (x c t)) (ho : output.WF) (hw : output.Writable)
    (hc : output.channelCount = channels) (hf : f < output.frameCount) (n : ℕ) (hn : n ≤ channels) :
    ∃ o, (List.range n).foldlM (sample input f) (p, output) =
        .ok ({ p with delays := histories x (fun c => response cs (x c)) channels t n }, o) ∧
      output.SameShape o ∧ o.WF ∧ o.Writable ∧ ∀ c f', c < channels → f' < output.frameCount →
        o.sample? c f' = if c < n ∧ f' = f then some (response cs (x c) t) else output.sample? c f' := by
  induction n with
  | zero =>
    refine ⟨output, ?_, SameShape.refl _, ho, hw, fun c f' _ _ => by rw [if_neg (by omega)]⟩
    rw [← hd]
    rfl
  | succ n ih =>
    obtain ⟨o, e1, e2, e3, e4, e5⟩ := ih (by omega)
    have hcc := e2.channelCount
    have hfc := e2.frameCount
    obtain ⟨o', c1, c2, c3, c4, c5⟩ := Pan.setSample_spec o e3 e4 n f (by omega) (by omega) (response cs (x n) t)
    refine ⟨o', ?_, e2.trans c2, c3, c4, ?_⟩
    · rw [List.range_succ, List.foldlM_append, e1]
      have hlen : n < (histories x (fun c => response cs (x c)) channels t n).length := by
        simp [histories]; omega
      have hget : (histories x (fun c => response cs (x c)) channels t n)[n] = history (x n) (response cs (x n)) t := by
        simp [histories]
      simp only [step_ok, List.foldlM_cons, List.foldlM_nil, sample, hi n (by omega), index_ok hlen, hget, hp, out_history,
        history_next, assign_ok _ hlen, c1, histories_set]
      rfl
    · intro c f' h1 h2
      rw [c5 c f' (by omega) (by omega), e5 c f' h1 h2]
      by_cases h : c = n ∧ f' = f
      · rw [if_pos h, if_pos ⟨by omega, h.2⟩, h.1]
      · rw [if_neg h]
        by_cases h' : c < n ∧ f' = f
        · rw [if_pos h', if_pos ⟨by omega, h'.2⟩]
        · rw [if_neg h', if_neg (by omega)]

/-- The coefficients are always those of the settings last seen. -/
theorem update_spec (p : Processor) (s : Settings) (h : p.coefficients = calculate p.type p.last p.sampleRate) :
    (p.update s).coefficients = calculate p.type s p.sampleRate ∧ (p.update s).last = s ∧ (p.update s).type = p.type ∧
      (p.update s).sampleRate = p.sampleRate ∧ (p.update s).delays = p.delays := by
  unfold Processor.update
  by_cases hs : s ≠ p.last
  · rw [if_pos hs]
    exact ⟨rfl, rfl, rfl, rfl, rfl⟩
  · rw [if_neg hs]
    push Not at hs
    exact ⟨by rw [h, hs], hs.symm, rfl, rfl, rfl⟩

/-- The processor is at time `t` of the signals. -/
def AtTime (type : FilterType) (sampleRate channels : Nat) (g : Signals) (t : Nat) (p : Processor) : Prop :=
  p.type = type ∧ p.sampleRate = sampleRate ∧ p.coefficients = calculate p.type p.last p.sampleRate ∧
  p.delays = histories g.x (fun c => response (fun n => calculate type (g.settings n) sampleRate) (g.x c)) channels t 0

theorem frames_ok (type : FilterType) (sampleRate channels : Nat) (g : Signals) (t : Nat) (p : Processor)
    (hp : AtTime type sampleRate channels g t p) (b : FilterBlock) (hb : b.Carries channels g t) (n : Nat)
    (hn : n ≤ b.output.frameCount) :
    ∃ p' o, (List.range n).foldlM (frame b.params b.input b.output.channelCount) (p, b.output) = .ok (p', o) ∧
      AtTime type sampleRate channels g (t + n) p' ∧ b.output.SameShape o ∧ o.WF ∧ o.Writable ∧
      ∀ c f, c < channels → f < b.output.frameCount → o.sample? c f =
        if f < n then some (response (fun n => calculate type (g.settings n) sampleRate) (g.x c) (t + f))
        else b.output.sample? c f := by
  obtain ⟨b1, b2, b3, b4, b5, b6, b7, b8⟩ := hb
  induction n with
  | zero => exact ⟨p, b.output, rfl, hp, SameShape.refl _, b2, b3, fun c f _ _ => by rw [if_neg (by omega)]⟩
  | succ n ih =>
    obtain ⟨p', o, e1, ⟨q1, q2, q3, q4⟩, e3, e4, e5, e6⟩ := ih (by omega)
    have hcc := e3.channelCount
    have hfc := e3.frameCount
    obtain ⟨v1, v2, v3, v4, v5⟩ := b8 n (by omega)
    obtain ⟨u1, u2, u3, u4, u5⟩ := update_spec p' (g.settings (t + n)) q3
    have hget : ∀ c < channels, b.input.getSample ⟨c, n⟩ = .ok (g.x c (t + n)) := by
      intro c hc
      obtain ⟨v, hv, hv'⟩ := getSample_eq b.input b1 c n (by omega) (by omega)
      rw [v1 c hc] at hv
      cases hv
      exact hv'
    rw [q1, q2] at u1
    obtain ⟨o', c1, c2, c3, c4, c5⟩ := channels_ok (fun n => calculate type (g.settings n) sampleRate) g.x channels (t + n) n
      b.input (p'.update (g.settings (t + n))) o u1 (u5.trans q4) hget e4 e5 (by omega) (by omega) channels le_rfl
    refine ⟨{ p'.update (g.settings (t + n)) with
      delays := histories g.x (fun c => response (fun n => calculate type (g.settings n) sampleRate) (g.x c)) channels (t + n)
        channels }, o', ?_, ?_, e3.trans c2, c3, c4, ?_⟩
    · rw [List.range_succ, List.foldlM_append, e1]
      simp only [step_ok, List.foldlM_cons, List.foldlM_nil, frame, index_of_get? v2, index_of_get? v3, index_of_get? v4, b5]
      have : (⟨(g.settings (t + n)).frequency, (g.settings (t + n)).q, (g.settings (t + n)).shelfGain⟩ : Settings) =
        g.settings (t + n) := rfl
      rw [this, c1]
      rfl
    · refine ⟨u3.trans q1, u4.trans q2, ?_, ?_⟩
      · show (p'.update (g.settings (t + n))).coefficients = _
        rw [u1]
        show _ = calculate (p'.update (g.settings (t + n))).type (p'.update (g.settings (t + n))).last
          (p'.update (g.settings (t + n))).sampleRate
        rw [u2, u3, u4, q1, q2]
      · show histories _ _ _ _ _ = _
        rw [histories_full]
        rfl
    · intro c f h1 h2
      rw [c5 c f h1 (by omega), e6 c f h1 h2]
      by_cases h : f = n
      · subst h
        rw [if_pos ⟨h1, rfl⟩, if_pos (by omega)]
      · rw [if_neg (by tauto)]
        by_cases h' : f < n
        · rw [if_pos h', if_pos (by omega)]
        · rw [if_neg h', if_neg (by omega)]

theorem block_ok (isZero isOne : ℝ → Bool) (hz : ∀ x, isZero x = true → x = 0) (hone : ∀ x, isOne x = true → x = 1)
    (type : FilterType) (sampleRate channels : Nat) (g : Signals) (t : Nat) (p : Processor)
    (hp : AtTime type sampleRate channels g t p) (b : FilterBlock) (hb : b.Carries channels g t) :
    ∃ p' o, p.process isZero isOne b.al b.params b.input b.output = .ok (p', o) ∧
      AtTime type sampleRate channels g (t + b.output.frameCount) p' ∧ b.output.SameShape o ∧
      ∀ c < channels, ∀ f < b.output.frameCount, o.sample? c f =
        some (response (fun n => calculate type (g.settings n) sampleRate) (g.x c) (t + f) * g.gain (t + f)) := by
  obtain ⟨p', o, e1, e2, e3, e4, e5, e6⟩ := frames_ok type sampleRate channels g t p hp b hb _ le_rfl
  obtain ⟨b1, b2, b3, b4, b5, b6, b7, b8⟩ := hb
  have hcc := e3.channelCount
  have hfc := e3.frameCount
  obtain ⟨o', c1, c2, -, -, c3⟩ := C36_apply_gain isZero isOne hz hone b.al o b.params.gain e4 e5 (by omega)
  refine ⟨p', o', ?_, e2, e3.trans c2, ?_⟩
  · unfold Processor.process
    rw [e1]
    simp only [step_ok, c1]
    rfl
  · intro c hc f hf
    obtain ⟨_, _, _, _, v5⟩ := b8 f hf
    rw [c3 c f (by omega) (by omega), e6 c f hc hf, if_pos hf, v5]
    rfl

theorem new_at_zero (type : FilterType) (sampleRate channels : Nat) (g : Signals) :
    AtTime type sampleRate channels g 0 (Processor.new sampleRate channels type) := by
  refine ⟨rfl, rfl, rfl, ?_⟩
  apply List.ext_getElem
  · simp [Processor.new, histories]
  · intro i h1 h2
    simp [Processor.new, histories, history]

end Biquad
end Rawdio
