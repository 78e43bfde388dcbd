import Verif.Spec.Envelope
import Verif.Lemmas.Follower
import Verif.Lemmas.Buffer3

/-! # Lemmas on the envelope node -/

namespace Rawdio
namespace EnvelopeNode

open Buf

theorem foldl_sampleStep (xs : List ℝ) : ∀ (e : Follower) (p : ℝ),
    xs.foldl sampleStep (e, p) = (e.run xs, peakOf p (e.values xs)) := by
  induction xs with
  | nil => intro e p; rfl
  | cons x xs ih =>
    intro e p
    rw [List.foldl_cons]
    show xs.foldl sampleStep ((e.process x).1, max p (e.process x).2) = _
    rw [ih]
    rfl

/-- The samples of a channel from a position on. -/
def samplesFrom (b : Buf ℝ) (c position n : Nat) : List ℝ := (List.range n).map fun f => b.sampleOr0 c (position + f)

theorem samplesFrom_zero (b : Buf ℝ) (c n : Nat) : samplesFrom b c 0 n = b.firstSamples c n := by
  unfold samplesFrom firstSamples
  simp only [Nat.zero_add]

theorem slice_samples {input : Buf ℝ} (hi : input.WF) {c : Nat} (hc : c < input.channelCount) {position n : Nat}
    (hn : position + n ≤ input.frameCount) :
    ∃ data, input.channelData (Loc.ofChannel c) = .ok data ∧ data.length = input.frameCount ∧
      sliceRange data position (position + n) = .ok (samplesFrom input c position n) := by
  obtain ⟨l, hl, hlen, hget⟩ := channelData_spec input hi (Loc.ofChannel c) hc (by simp only [Loc.ofChannel]; omega)
  simp only [Loc.ofChannel, Nat.sub_zero, Nat.zero_add] at hlen hget
  refine ⟨l, hl, hlen, ?_⟩
  rw [sliceRange_ok (by omega) (by omega)]
  congr 1
  apply List.ext_getElem?
  intro i
  rw [slice_get?]
  unfold samplesFrom
  by_cases h : i < n
  · rw [if_pos (by omega), hget, List.getElem?_map, List.getElem?_range h]
    obtain ⟨v, hv⟩ := sample?_isSome input hi c (position + i) hc (by omega)
    simp only [Option.map_some]
    unfold sampleOr0
    rw [hv]
    rfl
  · rw [if_neg (by omega), List.getElem?_eq_none (by simp; omega)]

/-- All channels of a round. -/
theorem channels_ok (input : Buf ℝ) (hi : input.WF) (position count : Nat)
    (hp : position + count ≤ input.frameCount) (e : EnvelopeNode)
    (he : input.channelCount ≤ e.envelopes.length) (hk : input.channelCount ≤ e.peaks.length) (n : Nat)
    (hn : n ≤ input.channelCount) :
    ∃ envelopes peaks, (List.range n).foldlM (channelStep input position count) e =
        .ok { e with envelopes := envelopes, peaks := peaks } ∧
      envelopes.length = e.envelopes.length ∧ peaks.length = e.peaks.length ∧
      (∀ (c : Nat) (v : Follower) (p : ℝ), e.envelopes[c]? = some v → e.peaks[c]? = some p → c < n →
        envelopes[c]? = some (v.run (samplesFrom input c position count)) ∧
        peaks[c]? = some (peakOf p (v.values (samplesFrom input c position count)))) ∧
      (∀ c, n ≤ c → envelopes[c]? = e.envelopes[c]? ∧ peaks[c]? = e.peaks[c]?) := by
  induction n with
  | zero => exact ⟨e.envelopes, e.peaks, rfl, rfl, rfl, fun _ _ _ _ _ h => absurd h (by omega), fun _ _ => ⟨rfl, rfl⟩⟩
  | succ n ih =>
    obtain ⟨es, ps, e1, e2, e3, e4, e5⟩ := ih (by omega)
    obtain ⟨data, d1, _, d2⟩ := slice_samples hi (show n < input.channelCount by omega) hp
    have hv : e.envelopes[n]? = some (e.envelopes[n]'(by omega)) := List.getElem?_eq_getElem _
    have hq : e.peaks[n]? = some (e.peaks[n]'(by omega)) := List.getElem?_eq_getElem _
    obtain ⟨v, hv'⟩ : ∃ v, e.envelopes[n]? = some v := ⟨_, hv⟩
    obtain ⟨p, hq'⟩ : ∃ p, e.peaks[n]? = some p := ⟨_, hq⟩
    have h5 := e5 n (le_refl _)
    have i1 : Buf.index es n = .ok v := by
      rw [index_ok (by omega : n < es.length)]
      have : es[n]? = some (es[n]'(by omega)) := List.getElem?_eq_getElem _
      rw [h5.1, hv'] at this
      rw [Option.some.inj this]
    have i2 : Buf.index ps n = .ok p := by
      rw [index_ok (by omega : n < ps.length)]
      have : ps[n]? = some (ps[n]'(by omega)) := List.getElem?_eq_getElem _
      rw [h5.2, hq'] at this
      rw [Option.some.inj this]
    refine ⟨es.set n (v.run (samplesFrom input n position count)),
      ps.set n (peakOf p (v.values (samplesFrom input n position count))), ?_, by simp [e2], by simp [e3], ?_, ?_⟩
    · rw [List.range_succ, List.foldlM_append, e1]
      simp only [List.foldlM_cons, List.foldlM_nil, bind_pure]
      show channelStep input position count _ n = _
      unfold channelStep
      simp only [d1, d2, i1, i2, bind, Except.bind, foldl_sampleStep]
    · intro c v' p' hv1 hp1 hc
      by_cases hcn : c = n
      · subst hcn
        rw [hv'] at hv1
        rw [hq'] at hp1
        cases hv1
        cases hp1
        rw [List.getElem?_set_self (by omega), List.getElem?_set_self (by omega)]
        exact ⟨rfl, rfl⟩
      · rw [List.getElem?_set_ne (by omega), List.getElem?_set_ne (by omega)]
        exact e4 c v' p' hv1 hp1 (by omega)
    · intro c hc
      rw [List.getElem?_set_ne (by omega), List.getElem?_set_ne (by omega)]
      exact e5 c (by omega)

/-- Sending to a channel with room. -/
theorem sends_ok (e : EnvelopeNode) (n : Nat) (hp : n ≤ e.peaks.length)
    (hr : e.channel.length + n ≤ envelopeChannelCapacity) :
    (List.range n).foldlM sendOne e = .ok { e with channel := e.channel ++ (List.range n).map (fun c => ⟨c, (e.peaks[c]?).getD 0⟩) } := by
  induction n with
  | zero => simp [pure, Except.pure]
  | succ n ih =>
    rw [List.range_succ, List.foldlM_append, ih (by omega) (by omega)]
    simp only [List.foldlM_cons, List.foldlM_nil, bind_pure]
    show sendOne _ n = _
    unfold sendOne
    simp only [index_ok (by omega : n < e.peaks.length), bind, Except.bind]
    rw [if_pos (by simp; omega)]
    simp only [List.map_append, List.map_cons, List.map_nil, List.append_assoc,
      List.getElem?_eq_getElem (by omega : n < e.peaks.length), Option.getD_some]

/-- Sending to a channel without room. -/
theorem sends_block (e : EnvelopeNode) (n : Nat) (hp : n ≤ e.peaks.length)
    (hc : e.channel.length ≤ envelopeChannelCapacity)
    (hr : envelopeChannelCapacity < e.channel.length + n) : (List.range n).foldlM sendOne e = .error .block := by
  obtain ⟨k, hk⟩ : ∃ k, e.channel.length + k = envelopeChannelCapacity := ⟨_, Nat.add_sub_of_le hc⟩
  have hs : List.range n = List.range k ++ (List.range (n - k)).map (k + ·) := by
    rw [← List.range_add]
    congr 1
    omega
  rw [hs, List.foldlM_append, sends_ok e k (by omega) (by omega)]
  obtain ⟨m, hm⟩ : ∃ m, n - k = m + 1 := ⟨n - k - 1, by omega⟩
  rw [hm, List.range_succ_eq_map]
  simp only [List.map_cons, List.foldlM_cons]
  show (sendOne _ (k + 0) >>= _) = _
  unfold sendOne
  simp only [Nat.add_zero, index_ok (by omega : k < e.peaks.length), bind, Except.bind]
  rw [if_neg (by simp; omega)]

/-- The lists have one entry for each channel, and the notification has counted `total` frames. -/
structure Ok (e : EnvelopeNode) (channels : Nat) (interval : ℚ) (total : Nat) : Prop where
  envelopes : e.envelopes.length = channels
  peaks : e.peaks.length = channels
  notification : e.notification.At interval total

/-- A round that ends the loop. -/
theorem last_round (e : EnvelopeNode) (input : Buf ℝ) (hi : input.WF) (interval : ℚ) (total : Nat)
    (h : e.Ok input.channelCount interval total) (fuel rounds : Nat)
    (hfuel : (input.frameCount : ℚ) / interval + 1 < fuel) (hpos : 0 < input.channelCount)
    (hcc : input.channelCount ≤ min input.frameCount e.notification.samplesUntilNextNotification)
    (hroom : ⌊(total : ℚ) / interval⌋ < ⌊((total + input.frameCount : Nat) : ℚ) / interval⌋ →
      e.channel.length + input.channelCount ≤ envelopeChannelCapacity) :
    ∃ (e' : EnvelopeNode) (peaks : List ℝ), e.processAudio (rounds + 2) fuel input = .ok e' ∧
      e'.Ok input.channelCount interval (total + input.frameCount) ∧ peaks.length = input.channelCount ∧
      e'.notifications = e.notifications ∧
      (∀ (c : Nat) (v : Follower) (p : ℝ), e.envelopes[c]? = some v → e.peaks[c]? = some p →
        e'.envelopes[c]? = some (v.run (input.firstSamples c
          (min input.frameCount e.notification.samplesUntilNextNotification))) ∧
        peaks[c]? = some (peakOf p (v.values (input.firstSamples c
          (min input.frameCount e.notification.samplesUntilNextNotification))))) ∧
      (⌊(total : ℚ) / interval⌋ < ⌊((total + input.frameCount : Nat) : ℚ) / interval⌋ →
        e'.channel = e.channel ++ (List.range input.channelCount).map (fun c => ⟨c, (peaks[c]?).getD 0⟩) ∧
        e'.peaks = peaks.map fun _ => 0) ∧
      (¬ ⌊(total : ℚ) / interval⌋ < ⌊((total + input.frameCount : Nat) : ℚ) / interval⌋ →
        e'.channel = e.channel ∧ e'.peaks = peaks) := by
  obtain ⟨count, hcount⟩ : ∃ count, min input.frameCount e.notification.samplesUntilNextNotification = count := ⟨_, rfl⟩
  rw [hcount] at hcc ⊢
  obtain ⟨es, ps, e1, e2, e3, e4, _⟩ := channels_ok input hi 0 count (by omega) e (by rw [h.envelopes])
    (by rw [h.peaks]) input.channelCount (le_refl _)
  obtain ⟨p', b, d1, d2, d3⟩ := h.notification.advance input.frameCount fuel hfuel
  have hloop : ∀ e'', loop fuel input (rounds + 1) e'' (0 + count) = .ok e'' := by
    intro e''
    unfold loop
    rw [if_neg (by omega)]
  have h4 : ∀ (c : Nat) (v : Follower) (p : ℝ), e.envelopes[c]? = some v → e.peaks[c]? = some p →
      es[c]? = some (v.run (input.firstSamples c count)) ∧
      ps[c]? = some (peakOf p (v.values (input.firstSamples c count))) := by
    intro c v p hv hp
    have hc : c < input.channelCount := by
      rw [← h.envelopes]
      exact (List.getElem?_eq_some_iff.mp hv).1
    rw [← samplesFrom_zero]
    exact e4 c v p hv hp hc
  have hlen : ps.length = input.channelCount := by rw [e3, h.peaks]
  by_cases hb : ⌊(total : ℚ) / interval⌋ < ⌊((total + input.frameCount : Nat) : ℚ) / interval⌋
  · have hbt : b = true := d3.mpr hb
    subst hbt
    refine ⟨{ e with
        envelopes := es, peaks := ps.map (fun _ => 0), notification := p', channel := e.channel ++ (List.range input.channelCount).map (fun c => ⟨c, (ps[c]?).getD 0⟩) },
      ps, ?_, ⟨by rw [← h.envelopes]; exact e2, by simp [hlen], d2⟩, hlen, rfl, h4, fun _ => ⟨rfl, rfl⟩,
      fun hn => absurd hb hn⟩
    unfold processAudio
    rw [loop, if_pos hpos, hcount]
    simp only [e1, bind, Except.bind]
    unfold notify
    simp only [d1, bind, Except.bind, if_true]
    unfold sendNotifications
    rw [sends_ok _ _ (by simp only; omega) (by simp only; exact hroom hb)]
    simp only [bind, Except.bind]
    exact hloop _
  · have hbt : b = false := by
      cases b with
      | false => rfl
      | true => exact absurd (d3.mp rfl) hb
    subst hbt
    refine ⟨⟨es, p', ps, e.channel, e.notifications⟩, ps, ?_, ⟨by rw [← h.envelopes]; exact e2, hlen, d2⟩, hlen, rfl, h4,
      fun hn => absurd hn hb, fun _ => ⟨rfl, rfl⟩⟩
    unfold processAudio
    rw [loop, if_pos hpos, hcount]
    simp only [e1, bind, Except.bind]
    unfold notify
    simp only [d1, bind, Except.bind]
    exact hloop _

end EnvelopeNode
end Rawdio
