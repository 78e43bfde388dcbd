import Verif.Lemmas.FileRender
import Verif.Props.Buffers2
import Verif.Spec.LiveHost

/-! Helper lemmas about the live host. -/

namespace Rawdio
namespace LiveHost

open Buf DspGraph Processor

variable {S P C : Type}

/-! ## The queue -/

theorem capture_ok (queue data : List S) (h : queue.length + data.length ≤ capacity) :
    capture queue data = .ok (queue ++ data) := by
  induction data generalizing queue with
  | nil => simp [capture, pure, Except.pure]
  | cons x data ih =>
    rw [List.length_cons] at h
    unfold capture at *
    rw [List.foldlM_cons, ok_bind (show send queue x = .ok (queue ++ [x]) from if_pos (by omega)),
      ih (queue ++ [x]) (by rw [List.length_append, List.length_singleton]; omega), List.append_assoc]
    rfl

theorem capture_blocks (queue data : List S) (h : capacity < queue.length + data.length) (hne : data ≠ []) :
    capture queue data = .error .block := by
  induction data generalizing queue with
  | nil => exact absurd rfl hne
  | cons x data ih =>
    rw [List.length_cons] at h
    unfold capture at *
    rw [List.foldlM_cons]
    by_cases hx : queue.length < capacity
    · rw [ok_bind (show send queue x = .ok (queue ++ [x]) from if_pos hx)]
      refine ih (queue ++ [x]) (by rw [List.length_append, List.length_singleton]; omega) ?_
      rintro rfl
      rw [List.length_nil] at h
      omega
    · rw [show send queue x = .error .block from if_neg hx]
      rfl

theorem capture_eq {queue data q : List S} (h : capture queue data = .ok q) : q = queue ++ data := by
  induction data generalizing queue with
  | nil => injection h with h; rw [← h, List.append_nil]
  | cons x data ih =>
    unfold capture at h ih
    rw [List.foldlM_cons] at h
    obtain ⟨q1, h1, h2⟩ := bind_ok h
    unfold send at h1
    split at h1
    · injection h1 with h1
      subst h1
      rw [ih h2, List.append_assoc]
      rfl
    · cases h1

/-! ## Receiving -/

/-- What holds after `j` samples have been received. -/
structure Received (q : List S) (arrivals : Nat → List S) (ch : Nat) (b0 : Buf S) (j : Nat) (s : List S × Buf S) :
    Prop where
  enough : j ≤ (q ++ (List.range j).flatMap arrivals).length
  queue : s.1 = (q ++ (List.range j).flatMap arrivals).drop j
  shape : b0.SameShape s.2
  wf : s.2.WF
  writable : s.2.Writable
  sample : ∀ c f, c < b0.channelCount → f < b0.frameCount → s.2.sample? c f =
    if c < ch ∧ f * ch + c < j then (q ++ (List.range j).flatMap arrivals)[f * ch + c]? else b0.sample? c f

theorem place_unique {ch c f c' f' : Nat} (hc : c < ch) (hc' : c' < ch) (h : f * ch + c = f' * ch + c') :
    c = c' ∧ f = f' := by
  have h1 : (f * ch + c) % ch = c := by rw [Nat.add_comm, Nat.add_mul_mod_self_right, Nat.mod_eq_of_lt hc]
  have h2 : (f' * ch + c') % ch = c' := by rw [Nat.add_comm, Nat.add_mul_mod_self_right, Nat.mod_eq_of_lt hc']
  have e : c = c' := by rw [← h1, ← h2, h]
  subst e
  refine ⟨rfl, ?_⟩
  have : f * ch = f' * ch := by omega
  exact Nat.eq_of_mul_eq_mul_right (by omega) this

theorem setSample_sample {b b' : Buf S} (hw : b.WF) (hm : b.Writable) {c f : Nat} (hc : c < b.channelCount)
    (hf : f < b.frameCount) {v : S} (h : b.setSample ⟨c, f⟩ v = .ok b') : b.SameShape b' ∧ b'.WF ∧ b'.Writable ∧
      ∀ c' f', c' < b.channelCount → f' < b.frameCount →
        b'.sample? c' f' = if c' = c ∧ f' = f then some v else b.sample? c' f' := by
  obtain ⟨b1, h1, h2, h3, h4, h5, h6⟩ := C29_write_one_sample b hw hm c f hc hf v
  rw [h] at h1
  injection h1 with h1
  subst h1
  refine ⟨h2, h3, h4, ?_⟩
  intro c' f' hc' hf'
  obtain ⟨w, w1, w2⟩ := getSample_eq b' h3 c' f' (by rw [← h2.channelCount]; exact hc')
    (by rw [← h2.frameCount]; exact hf')
  rw [w1]
  by_cases he : c' = c ∧ f' = f
  · obtain ⟨rfl, rfl⟩ := he
    rw [if_pos ⟨rfl, rfl⟩]
    rw [w2] at h5
    injection h5 with h5
    rw [h5]
  · rw [if_neg he]
    rw [h6 c' f' hc' hf' (by intro e; injection e with e1 e2; exact he ⟨e1, e2⟩)] at w2
    obtain ⟨u, u1, u2⟩ := getSample_eq b hw c' f' hc' hf'
    rw [u2] at w2
    injection w2 with w2
    rw [u1, w2]

theorem receive_step {q : List S} {arrivals : Nat → List S} {ch : Nat} {b0 : Buf S} {s s' : List S × Buf S}
    {c f : Nat} (hcc : ch ≤ b0.channelCount) (hc : c < ch) (hf : f < b0.frameCount)
    (h : Received q arrivals ch b0 (f * ch + c) s)
    (hr : receive (arrivals (f * ch + c)) ⟨c, f⟩ s = .ok s') : Received q arrivals ch b0 (f * ch + c + 1) s' := by
  unfold receive at hr
  obtain ⟨q1, h1, h2⟩ := bind_ok hr
  have e1 := capture_eq h1
  have hl := h.enough
  have e2 : q1 = (q ++ (List.range (f * ch + c + 1)).flatMap arrivals).drop (f * ch + c) := by
    rw [e1, h.queue, List.range_succ, List.flatMap_append, ← List.append_assoc, List.drop_append_of_le_length hl]
    simp
  have hle : f * ch + c ≤ (q ++ (List.range (f * ch + c + 1)).flatMap arrivals).length := by
    rw [List.range_succ, List.flatMap_append, ← List.append_assoc, List.length_append]
    omega
  have hsame : ∀ i, i < f * ch + c → (q ++ (List.range (f * ch + c + 1)).flatMap arrivals)[i]? =
      (q ++ (List.range (f * ch + c)).flatMap arrivals)[i]? := by
    intro i hi
    rw [List.range_succ, List.flatMap_append, ← List.append_assoc, List.getElem?_append_left (by omega)]
  obtain ⟨W, hW⟩ : ∃ W, W = q ++ (List.range (f * ch + c + 1)).flatMap arrivals := ⟨_, rfl⟩
  rw [← hW] at e2 hle
  simp only [← hW] at hsame
  cases q1 with
  | nil => cases h2
  | cons x q2 =>
    obtain ⟨b', h3, h4⟩ := bind_ok h2
    injection h4 with h4
    subst h4
    have hx : W[f * ch + c]? = some x := by
      have := congrArg (fun l => l[0]?) e2
      simp only [List.getElem?_cons_zero, List.getElem?_drop, Nat.add_zero] at this
      exact this.symm
    have hcs : c < s.2.channelCount := by rw [← h.shape.channelCount]; omega
    have hfs : f < s.2.frameCount := by rw [← h.shape.frameCount]; exact hf
    obtain ⟨g1, g2, g3, g4⟩ := setSample_sample h.wf h.writable hcs hfs h3
    have hlt : f * ch + c < W.length := by
      by_contra hn
      rw [List.getElem?_eq_none (by omega)] at hx
      cases hx
    refine ⟨by rw [← hW]; exact hlt, ?_, h.shape.trans g1, g2, g3, ?_⟩
    · rw [← hW]
      have := congrArg List.tail e2
      rw [List.tail_cons, List.tail_drop] at this
      exact this
    · intro c' f' hc' hf'
      rw [← hW, g4 c' f' (by rw [← h.shape.channelCount]; exact hc') (by rw [← h.shape.frameCount]; exact hf'),
        h.sample c' f' hc' hf']
      by_cases he : c' = c ∧ f' = f
      · obtain ⟨rfl, rfl⟩ := he
        rw [if_pos ⟨rfl, rfl⟩, if_pos ⟨hc, by omega⟩, hx]
      · rw [if_neg he]
        by_cases h1 : c' < ch ∧ f' * ch + c' < f * ch + c
        · rw [if_pos h1, if_pos ⟨h1.1, by omega⟩, hsame _ h1.2]
        · rw [if_neg h1, if_neg]
          rintro ⟨h2, h3⟩
          exact he (place_unique h2 hc (by
            by_contra hn
            exact h1 ⟨h2, by omega⟩))

theorem receive_ok {q : List S} {arrivals : Nat → List S} {ch : Nat} {b0 : Buf S} {s : List S × Buf S}
    {c f : Nat} (hcc : ch ≤ b0.channelCount) (hc : c < ch) (hf : f < b0.frameCount)
    (h : Received q arrivals ch b0 (f * ch + c) s)
    (hen : f * ch + c < (q ++ (List.range (f * ch + c + 1)).flatMap arrivals).length)
    (hroom : (q ++ (List.range (f * ch + c + 1)).flatMap arrivals).length ≤ capacity) :
    ∃ s', receive (arrivals (f * ch + c)) ⟨c, f⟩ s = .ok s' := by
  have hl := h.enough
  rw [List.range_succ, List.flatMap_append, ← List.append_assoc, List.length_append] at hen hroom
  simp only [List.flatMap_cons, List.flatMap_nil, List.append_nil] at hen hroom
  have hs : s.1.length = (q ++ (List.range (f * ch + c)).flatMap arrivals).length - (f * ch + c) := by
    rw [h.queue, List.length_drop]
  have h1 := capture_ok s.1 (arrivals (f * ch + c)) (by omega)
  unfold receive
  rw [ok_bind h1]
  rcases hq : s.1 ++ arrivals (f * ch + c) with _ | ⟨x, q2⟩
  · have := congrArg List.length hq
    rw [List.length_append, List.length_nil] at this
    omega
  · obtain ⟨b', h2, _⟩ := C29_write_one_sample s.2 h.wf h.writable c f (by rw [← h.shape.channelCount]; omega)
      (by rw [← h.shape.frameCount]; exact hf) x
    exact ⟨_, ok_bind h2⟩

theorem foldlM_range_inv {σ : Type} {g : σ → Nat → Res σ} (I : Nat → σ → Prop) : ∀ (n : Nat) (s s' : σ),
    (∀ i s s', i < n → I i s → g s i = .ok s' → I (i + 1) s') → I 0 s → (List.range n).foldlM g s = .ok s' →
    I n s' := by
  intro n
  induction n with
  | zero => intro s s' _ h0 h; injection h with h; rwa [← h]
  | succ n ih =>
    intro s s' hstep h0 h
    rw [List.range_succ, List.foldlM_append] at h
    obtain ⟨s1, h1, h2⟩ := bind_ok h
    rw [List.foldlM_cons] at h2
    obtain ⟨s2, h3, h4⟩ := bind_ok h2
    injection h4 with h4
    subst h4
    exact hstep n s1 s2 (by omega) (ih s s1 (fun i s s' hi => hstep i s s' (by omega)) h0 h1) h3

theorem foldlM_range_exists {σ : Type} {g : σ → Nat → Res σ} (I : Nat → σ → Prop) : ∀ (n : Nat) (s : σ),
    (∀ i s, i < n → I i s → ∃ s', g s i = .ok s' ∧ I (i + 1) s') → I 0 s → ∃ s', (List.range n).foldlM g s = .ok s' ∧
    I n s' := by
  intro n
  induction n with
  | zero => intro s _ h0; exact ⟨s, rfl, h0⟩
  | succ n ih =>
    intro s hstep h0
    obtain ⟨s1, h1, h2⟩ := ih s (fun i s hi => hstep i s (by omega)) h0
    obtain ⟨s2, h3, h4⟩ := hstep n s1 (by omega) h2
    refine ⟨s2, ?_, h4⟩
    rw [List.range_succ, List.foldlM_append, ok_bind h1, List.foldlM_cons, ok_bind h3]
    rfl

theorem received_start {q : List S} {arrivals : Nat → List S} {ch : Nat} {b0 : Buf S} (hw : b0.WF) (hm : b0.Writable) :
    Received q arrivals ch b0 0 (q, b0) :=
  ⟨Nat.zero_le _, by simp, .refl _, hw, hm, by intro c f _ _; rw [if_neg (by omega)]⟩

theorem receiveFrames_received {q : List S} {arrivals : Nat → List S} {ch fr : Nat} {b0 : Buf S} {s : List S × Buf S}
    (hw : b0.WF) (hm : b0.Writable) (hcc : ch ≤ b0.channelCount) (hfr : fr ≤ b0.frameCount)
    (h : receiveFrames ch fr arrivals (q, b0) = .ok s) : Received q arrivals ch b0 (fr * ch) s := by
  refine foldlM_range_inv (fun f s => Received q arrivals ch b0 (f * ch) s) fr _ _ ?_ ?_ h
  · intro f s s' hf hs hg
    have := foldlM_range_inv (fun c s => Received q arrivals ch b0 (f * ch + c) s) ch _ _ ?_ hs hg
    · rwa [Nat.succ_mul]
    · intro c s s' hc hs hg
      exact receive_step hcc hc (by omega) hs hg
  · rw [Nat.zero_mul]
    exact received_start hw hm

theorem range_flatMap_le {α : Type} (g : Nat → List α) {m n : Nat} (h : m ≤ n) :
    ((List.range m).flatMap g).length ≤ ((List.range n).flatMap g).length := by
  obtain ⟨k, rfl⟩ := Nat.exists_eq_add_of_le h
  rw [List.range_add, List.flatMap_append, List.length_append]
  omega

theorem receiveFrames_ok {q : List S} {arrivals : Nat → List S} {ch fr : Nat} {b0 : Buf S}
    (hw : b0.WF) (hm : b0.Writable) (hcc : ch ≤ b0.channelCount) (hfr : fr ≤ b0.frameCount)
    (hen : fr * ch ≤ q.length) (hroom : (q ++ (List.range (fr * ch)).flatMap arrivals).length ≤ capacity) :
    ∃ s, receiveFrames ch fr arrivals (q, b0) = .ok s := by
  have key := foldlM_range_exists (g := fun s frame => (List.range ch).foldlM (fun s channel =>
    receive (arrivals (frame * ch + channel)) ⟨channel, frame⟩ s) s)
    (fun f s => Received q arrivals ch b0 (f * ch) s) fr (q, b0) ?_ ?_
  · obtain ⟨s, h, _⟩ := key
    exact ⟨s, h⟩
  · intro f s hf hs
    have := foldlM_range_exists (g := fun s channel => receive (arrivals (f * ch + channel)) ⟨channel, f⟩ s)
      (fun c s => Received q arrivals ch b0 (f * ch + c) s) ch s ?_ hs
    · rwa [Nat.succ_mul]
    · intro c s hc hs
      have hle : f * ch + c + 1 ≤ fr * ch := by
        calc f * ch + c + 1 ≤ f * ch + ch := by omega
          _ = (f + 1) * ch := by ring
          _ ≤ fr * ch := Nat.mul_le_mul_right _ hf
      have hm := range_flatMap_le arrivals hle
      rw [List.length_append] at hroom
      obtain ⟨s', h'⟩ := receive_ok hcc hc (by omega) hs (by rw [List.length_append]; omega)
        (by rw [List.length_append]; omega)
      exact ⟨s', h', receive_step hcc hc (by omega) hs h'⟩
  · rw [Nat.zero_mul]
    exact received_start hw hm

/-! ## Too many channels -/

/-- The buffer for the input as it is made. -/
def Whole (cfg : LiveConfig) (b : Buf S) : Prop :=
  ∃ d, b = .owned d cfg.outputChannels cfg.maxBufferSize cfg.sampleRate ∧ d.length = cfg.maxBufferSize * cfg.outputChannels

theorem whole_setSample {cfg : LiveConfig} {b b' : Buf S} (hb : Whole cfg b) {loc : Loc} {v : S}
    (h : b.setSample loc v = .ok b') : Whole cfg b' ∧ loc.channel < cfg.outputChannels := by
  obtain ⟨d, rfl, hd⟩ := hb
  unfold setSample modifyChannel at h
  obtain ⟨d', h1, h2⟩ := bind_ok h
  injection h2 with h2
  subst h2
  unfold modifyRange at h1
  obtain ⟨p, h3, h4⟩ := bind_ok h1
  obtain ⟨p', h5, h6⟩ := bind_ok h4
  injection h6 with h6
  subst h6
  unfold sliceRange at h3
  split at h3
  · rename_i hr
    injection h3 with h3
    cases p with
    | nil => cases h5
    | cons x p =>
      injection h5 with h5
      subst h5
      have hl := congrArg List.length h3
      rw [List.length_take, List.length_drop, List.length_cons] at hl
      refine ⟨⟨_, rfl, ?_⟩, ?_⟩
      · rw [List.length_append, List.length_append, List.length_take, List.length_drop, List.length_cons]
        omega
      · by_contra hn
        have := Nat.mul_le_mul_right cfg.maxBufferSize (show cfg.outputChannels + 1 ≤ loc.channel + 1 by omega)
        rw [hd, Nat.mul_comm cfg.maxBufferSize] at hr
        rw [Nat.succ_mul] at this
        have h0 : cfg.maxBufferSize = 0 := by omega
        rw [h0] at hl
        simp at hl
  · cases h3

theorem whole_receive {cfg : LiveConfig} {arrivals : List S} {loc : Loc} {s s' : List S × Buf S} (hb : Whole cfg s.2)
    (h : receive arrivals loc s = .ok s') : Whole cfg s'.2 ∧ loc.channel < cfg.outputChannels := by
  unfold receive at h
  obtain ⟨q, h1, h2⟩ := bind_ok h
  cases q with
  | nil => cases h2
  | cons x q =>
    obtain ⟨b', h3, h4⟩ := bind_ok h2
    injection h4 with h4
    subst h4
    exact whole_setSample hb h3

theorem whole_receiveFrames {cfg : LiveConfig} {ch fr : Nat} {arrivals : Nat → List S} {s s' : List S × Buf S}
    (hb : Whole cfg s.2) (h : receiveFrames ch fr arrivals s = .ok s') :
    Whole cfg s'.2 ∧ (0 < fr → ch ≤ cfg.outputChannels) := by
  have key := foldlM_range_inv (fun f (s : List S × Buf S) => Whole cfg s.2 ∧ (0 < f → ch ≤ cfg.outputChannels)) fr s s'
    ?_ ⟨hb, by simp⟩ h
  · exact key
  · intro f s s' hf hs hg
    have := foldlM_range_inv (fun c (s : List S × Buf S) => Whole cfg s.2 ∧ c ≤ cfg.outputChannels) ch s s' ?_
      ⟨hs.1, Nat.zero_le _⟩ hg
    · exact ⟨this.1, fun _ => this.2⟩
    · intro c s s' hc hs hg
      have := whole_receive hs.1 hg
      exact ⟨this.1, this.2⟩

end LiveHost
end Rawdio
