import Verif.Lemmas.LiveHost
import Verif.Lemmas.LiveDelay

/-! Helper lemmas about sessions of the live host. -/

namespace Rawdio
namespace LiveHost

open Buf DspGraph Processor

variable {S P C : Type}

/-- All samples that have been sent. -/
def stream [Zero S] (cfg : LiveConfig) (events : List (LiveEvent S P C)) : List S :=
  List.replicate (millisecond cfg.sampleRate * cfg.inputChannels) 0 ++ capturedIn cfg events

theorem stream_length [Zero S] (cfg : LiveConfig) (events : List (LiveEvent S P C)) : (stream cfg events).length =
    millisecond cfg.sampleRate * cfg.inputChannels + (capturedIn cfg events).length := by
  rw [stream, List.length_append, List.length_replicate]

theorem capturedIn_snoc (cfg : LiveConfig) (events : List (LiveEvent S P C)) (e : LiveEvent S P C) :
    capturedIn cfg (events ++ [e]) = capturedIn cfg events ++ e.captures cfg.inputChannels cfg.outputChannels := by
  simp [capturedIn]

theorem stream_snoc [Zero S] (cfg : LiveConfig) (events : List (LiveEvent S P C)) (e : LiveEvent S P C) :
    stream cfg (events ++ [e]) = stream cfg events ++ e.captures cfg.inputChannels cfg.outputChannels := by
  rw [stream, capturedIn_snoc, ← List.append_assoc]
  rfl

theorem delayed_getElem [Zero S] (cfg : LiveConfig) (events : List (LiveEvent S P C)) {c f : Nat}
    (hc : c < cfg.inputChannels) (h : f * cfg.inputChannels + c < (stream cfg events).length) :
    (stream cfg events)[f * cfg.inputChannels + c]? =
      some (delayedInput (millisecond cfg.sampleRate) cfg.inputChannels (capturedIn cfg events) c f) := by
  rw [stream_length] at h
  unfold stream delayedInput
  by_cases hf : millisecond cfg.sampleRate ≤ f
  · rw [if_pos ⟨hc, hf⟩]
    obtain ⟨g, rfl⟩ := Nat.exists_eq_add_of_le hf
    rw [Nat.add_mul] at *
    rw [List.getElem?_append_right (by rw [List.length_replicate]; omega), List.length_replicate, Nat.add_sub_cancel_left]
    have e : millisecond cfg.sampleRate * cfg.inputChannels + g * cfg.inputChannels + c -
        millisecond cfg.sampleRate * cfg.inputChannels = g * cfg.inputChannels + c := by omega
    rw [e, Wav.getD_lt _ _ (by omega), List.getElem?_eq_getElem (by omega)]
  · rw [if_neg (by omega)]
    have hlt : f * cfg.inputChannels + c < millisecond cfg.sampleRate * cfg.inputChannels :=
      calc f * cfg.inputChannels + c < f * cfg.inputChannels + cfg.inputChannels := by omega
        _ = (f + 1) * cfg.inputChannels := by ring
        _ ≤ _ := Nat.mul_le_mul_right _ (by omega)
    rw [List.getElem?_append_left (by rw [List.length_replicate]; exact hlt), List.getElem?_replicate, if_pos hlt]

/-- What is captured later does not change what has been played. -/
theorem delayed_later [Zero S] (cfg : LiveConfig) (events : List (LiveEvent S P C)) (e : LiveEvent S P C) {c f : Nat}
    (h : (f + 1) * cfg.inputChannels ≤ (stream cfg events).length) :
    delayedInput (millisecond cfg.sampleRate) cfg.inputChannels (capturedIn cfg (events ++ [e])) c f =
      delayedInput (millisecond cfg.sampleRate) cfg.inputChannels (capturedIn cfg events) c f := by
  by_cases hc : c < cfg.inputChannels
  · rw [Nat.succ_mul] at h
    have h1 := delayed_getElem cfg events hc (f := f) (by omega)
    have h2 := delayed_getElem cfg (events ++ [e]) hc (f := f) (by rw [stream_snoc, List.length_append]; omega)
    rw [stream_snoc, List.getElem?_append_left (by omega), h1] at h2
    injection h2 with h2
    exact h2.symm
  · unfold delayedInput
    rw [if_neg (by tauto), if_neg (by tauto)]

/-- What holds after some callbacks. -/
structure Live [Zero S] [Add S] (ops : NodeOps S P C) (cfg : LiveConfig) (mf mc : Nat)
    (events : List (LiveEvent S P C)) (s : LiveHost S P × List (List S)) (ks : List (Call S P C)) (x : Nat → Nat → S) :
    Prop where
  run : calls ops (new cfg.sampleRate mc mf) ks = .ok s.1.engine
  calls : LiveCalls cfg events ks
  enough : framesIn ks * cfg.inputChannels ≤ (stream cfg events).length
  queue : s.1.queue = (stream cfg events).drop (framesIn ks * cfg.inputChannels)
  inWF : s.1.input.WF
  inWritable : s.1.input.Writable
  inChannels : s.1.input.channelCount = cfg.outputChannels
  inFrames : s.1.input.frameCount = cfg.maxBufferSize
  unused : ∀ c f, cfg.inputChannels ≤ c → c < cfg.outputChannels → f < cfg.maxBufferSize →
    s.1.input.sample? c f = some 0
  outWF : s.1.output.WF
  outWritable : s.1.output.Writable
  outChannels : s.1.output.channelCount = cfg.outputChannels
  outFrames : s.1.output.frameCount = cfg.maxBufferSize
  heard : ∀ i k E1 o E2, ks[i]? = some k → Processor.calls ops (new cfg.sampleRate mc mf) (ks.take i) = .ok E1 →
    E1.process ops k.env k.commands k.input k.output = .ok (o, E2) →
    ∀ c f, c < cfg.outputChannels → f < k.output.frameCount → o.sample? c f = some (x c (framesIn (ks.take i) + f))
  count : s.2.length = ks.length
  played : ∀ i k, ks[i]? = some k → s.2[i]? = some (interleaved cfg.outputChannels k.output.frameCount
    fun c f => x c (framesIn (ks.take i) + f))

theorem liveCalls_valid [Zero S] {cfg : LiveConfig} {events : List (LiveEvent S P C)}
    (hapi : ∀ e ∈ events, ∀ c ∈ e.commands, c.1.Api) {ks : List (Call S P C)} (h : LiveCalls cfg events ks) :
    ∀ k ∈ ks, k.Valid := by
  intro k hk
  obtain ⟨_, h2, h3, h4, _, h6⟩ := h.shape k hk
  refine ⟨h4, h2, h3, h6.ge, ?_⟩
  have : k.commands ∈ ks.map Call.commands := List.mem_map_of_mem hk
  rw [h.commands] at this
  obtain ⟨e, he, h⟩ := List.mem_map.mp this
  rw [← h]
  exact hapi e (List.mem_filter.mp he).1

theorem framesIn_take_lt {ks : List (Call S P C)} {i : Nat} {k : Call S P C} (hk : ks[i]? = some k) :
    framesIn (ks.take i) + k.output.frameCount ≤ framesIn ks := by
  have hi : i < ks.length := by
    by_contra hn
    rw [List.getElem?_eq_none (by omega)] at hk
    cases hk
  have e : ks = ks.take i ++ k :: ks.drop (i + 1) := by
    conv_lhs => rw [← List.take_append_drop i ks]
    rw [List.drop_eq_getElem_cons hi]
    rw [List.getElem?_eq_getElem hi] at hk
    injection hk with hk
    rw [hk]
  conv_rhs => rw [e]
  simp only [framesIn, List.map_append, List.sum_append, List.map_cons, List.sum_cons]
  omega

theorem liveCalls_later [Zero S] {cfg : LiveConfig} {events : List (LiveEvent S P C)} {ks : List (Call S P C)}
    (h : LiveCalls cfg events ks) (hen : framesIn ks * cfg.inputChannels ≤ (stream cfg events).length)
    (e : LiveEvent S P C) : ∀ i k, ks[i]? = some k → ∀ c f, c < cfg.outputChannels → f < k.output.frameCount →
      k.input.sample? c f = some (delayedInput (millisecond cfg.sampleRate) cfg.inputChannels
        (capturedIn cfg (events ++ [e])) c (framesIn (ks.take i) + f)) := by
  intro i k hk c f hc hf
  rw [h.input i k hk c f hc hf, delayed_later]
  have := framesIn_take_lt hk
  exact le_trans (Nat.mul_le_mul_right _ (by omega)) hen

/-- Something is captured. -/
theorem live_captured [Zero S] [Add S] {ops : NodeOps S P C} {cfg : LiveConfig} {mf mc : Nat}
    {events : List (LiveEvent S P C)} {s s' : LiveHost S P × List (List S)} {ks : List (Call S P C)} {x : Nat → Nat → S}
    (h : Live ops cfg mf mc events s ks x) {data : List S} (hs : step ops cfg s (.captured data) = .ok s') :
    Live ops cfg mf mc (events ++ [.captured data]) s' ks x := by
  obtain ⟨q, h1, h2⟩ := bind_ok hs
  injection h2 with h2
  subst h2
  have hq := capture_eq h1
  have he : stream cfg (events ++ [.captured data]) = stream cfg events ++ data := stream_snoc ..
  exact { h with
    calls := ⟨by simpa [LiveEvent.plays] using h.calls.commands, by simpa [LiveEvent.plays] using h.calls.frames,
      h.calls.shape, liveCalls_later h.calls h.enough _⟩
    enough := by rw [he, List.length_append]; have := h.enough; omega
    queue := by rw [he, List.drop_append_of_le_length h.enough, hq, h.queue] }

theorem interleaved_of_get {α : Type} {ch fr : Nat} {l : List α} {z : Nat → Nat → α} (hl : l.length = ch * fr)
    (h : ∀ c f, c < ch → f < fr → l[f * ch + c]? = some (z c f)) : l = interleaved ch fr z := by
  apply List.ext_getElem?
  intro i
  by_cases hi : i < l.length
  · have hch : 0 < ch := by
      rcases Nat.eq_zero_or_pos ch with h0 | h0
      · subst h0; rw [Nat.zero_mul] at hl; omega
      · exact h0
    have hf : i / ch < fr := Nat.div_lt_of_lt_mul (by omega)
    have e : i = i / ch * ch + i % ch := by rw [Nat.mul_comm]; exact (Nat.div_add_mod i ch).symm
    rw [e, h _ _ (Nat.mod_lt _ hch) hf, Wav.interleaved_get ch z _ (Nat.mod_lt _ hch) fr _ hf]
  · rw [List.getElem?_eq_none (by omega), List.getElem?_eq_none (by rw [Wav.interleaved_length, Nat.mul_comm]; omega)]

theorem sliceFrames_eq (b : Buf S) {n : Nat} (m : Bool) (h : n ≤ b.frameCount) :
    b.sliceFrames 0 n m = .ok (.slice b ⟨0, 0, b.channelCount, n⟩ m) := by
  unfold sliceFrames mkSlice rangeIsValid
  rw [if_pos]
  simp only
  rw [if_neg (by omega), if_neg (by omega)]

theorem sliceFrames_le {b s : Buf S} {n : Nat} {m : Bool} (h : b.sliceFrames 0 n m = .ok s) : n ≤ b.frameCount := by
  by_contra hn
  unfold sliceFrames mkSlice rangeIsValid at h
  rw [if_neg] at h
  · cases h
  · simp only
    rw [if_neg (by omega), if_pos (by omega)]
    simp

/-- The process call of an output callback. -/
def nextCall (frames : Nat) (commands : List (Command P C × Luck)) (env : Nat → Env) (input output : Buf S) :
    Call S P C := ⟨commands, .slice input ⟨0, 0, input.channelCount, frames⟩ false, output, env⟩

theorem play_live [AddZeroClass S] {ops : NodeOps S P C} {cfg : LiveConfig} {mf mc : Nat} (hm : 0 < mf)
    (hch : cfg.inputChannels ≤ cfg.outputChannels) (h0 : 0 < cfg.outputChannels)
    {events : List (LiveEvent S P C)} {s : LiveHost S P × List (List S)} {ks : List (Call S P C)} {x : Nat → Nat → S}
    (h : Live ops cfg mf mc events s ks x) {data : List S} {arrivals : Nat → List S}
    {commands : List (Command P C × Luck)} {env : Nat → Env}
    (hapi : ∀ e ∈ events ++ [.play data arrivals commands env], ∀ c ∈ e.commands, c.1.Api)
    (hdiv : cfg.outputChannels ∣ data.length) (hfr : data.length / cfg.outputChannels ≤ cfg.maxBufferSize)
    {r : List S × Buf S}
    (hr : receiveFrames cfg.inputChannels (data.length / cfg.outputChannels) arrivals (s.1.queue, s.1.input) = .ok r) :
    ∃ o0, (slice s.1.output ⟨0, 0, cfg.outputChannels, data.length / cfg.outputChannels⟩ true).clear = .ok o0 ∧
      LiveCalls cfg (events ++ [.play data arrivals commands env])
        (ks ++ [nextCall (data.length / cfg.outputChannels) commands env r.2 o0]) ∧
      ∀ o E', s.1.engine.process ops env commands
          (nextCall (C := C) (data.length / cfg.outputChannels) commands env r.2 o0 : Call S P C).input o0 = .ok (o, E') →
        ∃ s' y, step ops cfg s (.play data arrivals commands env) = .ok s' ∧
          Live ops cfg mf mc (events ++ [.play data arrivals commands env]) s'
            (ks ++ [nextCall (data.length / cfg.outputChannels) commands env r.2 o0]) y := by
  obtain ⟨fr, hfd⟩ : ∃ fr, fr = data.length / cfg.outputChannels := ⟨_, rfl⟩
  have hlen : data.length = cfg.outputChannels * fr := by rw [hfd, Nat.mul_div_cancel' hdiv]
  rw [← hfd] at hfr hr ⊢
  have hR := receiveFrames_received h.inWF h.inWritable (by rw [h.inChannels]; exact hch)
    (by rw [h.inFrames]; exact hfr) hr
  have hcc : r.2.channelCount = cfg.outputChannels := by rw [← hR.shape.channelCount, h.inChannels]
  have hfc : r.2.frameCount = cfg.maxBufferSize := by rw [← hR.shape.frameCount, h.inFrames]
  have hcaps : (LiveEvent.play data arrivals commands env : LiveEvent S P C).captures cfg.inputChannels cfg.outputChannels =
      (List.range (fr * cfg.inputChannels)).flatMap arrivals := by rw [hfd]; rfl
  have hst := stream_snoc cfg events (.play data arrivals commands env)
  rw [hcaps] at hst
  have hq : s.1.queue ++ (List.range (fr * cfg.inputChannels)).flatMap arrivals =
      (stream cfg (events ++ [.play data arrivals commands env])).drop (framesIn ks * cfg.inputChannels) := by
    rw [hst, List.drop_append_of_le_length h.enough, h.queue]
  have hen : (framesIn ks + fr) * cfg.inputChannels ≤ (stream cfg (events ++ [.play data arrivals commands env])).length := by
    have h1 := hR.enough
    have h2 := h.enough
    rw [hq, List.length_drop] at h1
    have h3 : (stream cfg events).length ≤ (stream cfg (events ++ [.play data arrivals commands env])).length := by
      rw [hst, List.length_append]; omega
    rw [Nat.add_mul]
    omega
  have hslw : (slice s.1.output ⟨0, 0, cfg.outputChannels, fr⟩ true).WF :=
    ⟨h.outWF, by simp only [h.outChannels]; omega, by simp only [h.outFrames]; omega⟩
  obtain ⟨o0, c1, c2, c3, c4, c5⟩ := C36_clear (slice s.1.output ⟨0, 0, cfg.outputChannels, fr⟩ true) hslw
    ⟨rfl, h.outWritable⟩
  obtain ⟨p0, rfl, hps⟩ : ∃ p0, o0 = slice p0 ⟨0, 0, cfg.outputChannels, fr⟩ true ∧ s.1.output.SameShape p0 := by
    cases o0 with
    | owned d c f s => cases c2
    | slice p' r' m' =>
      obtain ⟨a, rfl, rfl⟩ := c2
      exact ⟨p', rfl, a⟩
  have hin : (slice r.2 ⟨0, 0, r.2.channelCount, fr⟩ false).WF :=
    ⟨hR.wf, by simp only; omega, by simp only [hfc]; omega⟩
  have hget : ∀ c f, c < cfg.outputChannels → f < fr →
      (slice r.2 ⟨0, 0, r.2.channelCount, fr⟩ false).sample? c f = some (delayedInput (millisecond cfg.sampleRate)
        cfg.inputChannels (capturedIn cfg (events ++ [.play data arrivals commands env])) c (framesIn ks + f)) := by
    intro c f hc hf
    rw [slice_sample 0 fr false c f hf, Nat.zero_add, hR.sample c f (by rw [h.inChannels]; exact hc)
      (by rw [h.inFrames]; omega)]
    by_cases hci : c < cfg.inputChannels
    · have hlt : f * cfg.inputChannels + c < fr * cfg.inputChannels :=
        calc f * cfg.inputChannels + c < f * cfg.inputChannels + cfg.inputChannels := by omega
          _ = (f + 1) * cfg.inputChannels := by ring
          _ ≤ _ := Nat.mul_le_mul_right _ hf
      rw [if_pos ⟨hci, hlt⟩, hq, List.getElem?_drop]
      rw [← delayed_getElem cfg _ hci (by rw [Nat.add_mul]; rw [Nat.add_mul] at hen; omega), Nat.add_mul, Nat.add_assoc]
    · rw [if_neg (by tauto), h.unused c f (by omega) hc (by omega)]
      unfold delayedInput
      rw [if_neg (by tauto)]
  have hlive : LiveCalls cfg (events ++ [.play data arrivals commands env])
      (ks ++ [nextCall fr commands env r.2 (slice p0 ⟨0, 0, cfg.outputChannels, fr⟩ true)]) := by
    refine ⟨?_, ?_, ?_, ?_⟩
    · rw [List.map_append, h.calls.commands, List.filter_append, List.map_append]
      rfl
    · rw [List.map_append, h.calls.frames, List.filter_append, List.map_append]
      congr 1
      show [fr] = [data.length / cfg.outputChannels]
      rw [hfd]
    · intro k hk
      rw [List.mem_append, List.mem_singleton] at hk
      rcases hk with hk | rfl
      · exact h.calls.shape k hk
      · exact ⟨rfl, c3, c4, hin, hcc, rfl⟩
    · intro i k hk c f hc hf
      rcases Nat.lt_trichotomy i ks.length with hi | hi | hi
      · rw [List.getElem?_append_left hi] at hk
        rw [List.take_append_of_le_length hi.le]
        exact liveCalls_later h.calls h.enough _ i k hk c f hc hf
      · subst hi
        rw [List.getElem?_append_right (le_refl _), Nat.sub_self] at hk
        injection hk with hk
        subst hk
        rw [List.take_append_of_le_length (le_refl _), List.take_length]
        exact hget c f hc hf
      · rw [List.getElem?_eq_none (by simp; omega)] at hk
        cases hk
  refine ⟨_, c1, hlive, ?_⟩
  intro o E' hc
  have hv := liveCalls_valid hapi hlive
  obtain ⟨V, _, _, hE⟩ := calls_looks hm ks s.1.engine (fun l hl => hv l (by simp [hl])) h.run
  obtain ⟨p', rfl, q1, q2, q3, q4⟩ := Wav.process_slice hm hE
    (hv (nextCall fr commands env r.2 (slice p0 ⟨0, 0, cfg.outputChannels, fr⟩ true)) (by simp)) rfl hc
  have hex : ∀ c f, ∃ v, c < cfg.outputChannels → f < fr →
      (slice p' ⟨0, 0, cfg.outputChannels, fr⟩ true).sample? c f = some v := by
    intro c f
    by_cases hcf : c < cfg.outputChannels ∧ f < fr
    · obtain ⟨v, hv⟩ := sample?_isSome _ q4 c f hcf.1 hcf.2
      exact ⟨v, fun _ _ => hv⟩
    · exact ⟨0, fun a b => absurd ⟨a, b⟩ hcf⟩
  choose z hz using hex
  obtain ⟨out, d1, d2, d3, _⟩ := C31_copy_to_interleaved_partial (slice p' ⟨0, 0, cfg.outputChannels, fr⟩ true) q4 data
    cfg.outputChannels fr (le_refl _) hlen
  have hout : out = interleaved cfg.outputChannels fr z := by
    apply interleaved_of_get (by rw [d2, hlen])
    intro c f hc hf
    rw [d3 c f hc hf hf, hz c f hc hf]
  subst hout
  refine ⟨(⟨r.1, E', r.2, p'⟩, s.2 ++ [interleaved cfg.outputChannels fr z]),
    fun c f => if f < framesIn ks then x c f else z c (f - framesIn ks), ?_, ?_⟩
  · have hp : play ops cfg data arrivals commands env s.1 =
        .ok (⟨r.1, E', r.2, p'⟩, interleaved cfg.outputChannels fr z) := by
      unfold play
      rw [if_neg (by omega), ← hfd]
      refine (ok_bind hr).trans ?_
      refine (ok_bind (sliceFrames_eq r.2 false (by omega))).trans ?_
      refine (ok_bind (sliceFrames_eq s.1.output true (by rw [h.outFrames]; exact hfr))).trans ?_
      rw [h.outChannels]
      refine (ok_bind c1).trans ?_
      refine (ok_bind hc).trans ?_
      exact ok_bind d1
    exact ok_bind hp
  · have hfin : framesIn (ks ++ [nextCall fr commands env r.2 (slice p0 ⟨0, 0, cfg.outputChannels, fr⟩ true)]) =
        framesIn ks + fr := Gain.framesIn_append ..
    refine ⟨?_, hlive, ?_, ?_, hR.wf, hR.writable, hcc, hfc, ?_, q2, q3, ?_, ?_, ?_, ?_, ?_⟩
    · rw [calls_append]
      refine ⟨s.1.engine, h.run, ?_⟩
      rw [Processor.calls]
      exact ok_bind hc
    · rw [hfin]; exact hen
    · rw [hfin, hR.queue, hq, List.drop_drop, Nat.add_mul]
    · intro c f h1 h2 h3
      simp only
      rw [hR.sample c f (by rw [h.inChannels]; exact h2) (by rw [h.inFrames]; exact h3), if_neg (by omega),
        h.unused c f h1 h2 h3]
    · simp only
      rw [← q1.channelCount, ← hps.channelCount, h.outChannels]
    · simp only
      rw [← q1.frameCount, ← hps.frameCount, h.outFrames]
    · intro i k E1 o E2 hk hE1 ho c f hc' hf
      rcases Nat.lt_trichotomy i ks.length with hi | hi | hi
      · rw [List.getElem?_append_left hi] at hk
        rw [List.take_append_of_le_length hi.le] at hE1 ⊢
        have := framesIn_take_lt hk
        rw [h.heard i k E1 o E2 hk hE1 ho c f hc' hf, if_pos (by omega)]
      · subst hi
        rw [List.getElem?_append_right (le_refl _), Nat.sub_self] at hk
        injection hk with hk
        subst hk
        rw [List.take_append_of_le_length (le_refl _), List.take_length] at hE1 ⊢
        rw [h.run] at hE1
        injection hE1 with hE1
        subst hE1
        have ho' := hc.symm.trans ho
        injection ho' with ho'
        injection ho' with ho1 ho2
        subst ho1
        rw [if_neg (by omega), Nat.add_sub_cancel_left]
        exact hz c f hc' hf
      · rw [List.getElem?_eq_none (by simp; omega)] at hk
        cases hk
    · simp [h.count]
    · intro i k hk
      rcases Nat.lt_trichotomy i ks.length with hi | hi | hi
      · rw [List.getElem?_append_left hi] at hk
        rw [List.take_append_of_le_length hi.le, List.getElem?_append_left (by rw [h.count]; exact hi), h.played i k hk]
        congr 1
        apply Wav.interleaved_congr
        intro c f _ hf
        have := framesIn_take_lt hk
        rw [if_pos (by omega)]
      · subst hi
        rw [List.getElem?_append_right (le_refl _), Nat.sub_self] at hk
        injection hk with hk
        subst hk
        rw [List.take_append_of_le_length (le_refl _), List.take_length, List.getElem?_append_right (by rw [h.count]),
          h.count, Nat.sub_self]
        simp only [List.getElem?_cons_zero]
        congr 1
        apply Wav.interleaved_congr
        intro c f _ _
        rw [if_neg (by omega), Nat.add_sub_cancel_left]
      · rw [List.getElem?_eq_none (by simp; omega)] at hk
        cases hk

/-! ## Sessions -/

theorem start_live [Zero S] [Add S] {ops : NodeOps S P C} {cfg : LiveConfig} {mf mc : Nat}
    (hsr : cfg.sampleRate < 2 ^ 32) {h : LiveHost S P}
    (hs : start cfg (new cfg.sampleRate mc mf) = .ok h) : Live ops cfg mf mc [] (h, []) [] (fun _ _ => 0) := by
  obtain ⟨q, h1, h2⟩ := bind_ok hs
  injection h2 with h2
  subst h2
  have hq := capture_eq h1
  rw [List.nil_append, delay_eq _ _ hsr] at hq
  refine ⟨rfl, ⟨rfl, rfl, by simp, by simp⟩, by simp [framesIn], ?_, new_wf .., trivial, rfl, rfl, ?_, new_wf .., trivial, rfl,
    rfl, by simp, rfl, by simp⟩
  · simp [framesIn, stream, capturedIn, hq]
  · intro c f _ h2 h3
    simp only
    rw [new_sample?, if_pos ⟨h2, h3⟩]

theorem start_ok [Zero S] {cfg : LiveConfig} (E : Processor S P) (hsr : cfg.sampleRate < 2 ^ 32)
    (hroom : millisecond cfg.sampleRate * cfg.inputChannels ≤ capacity) : ∃ h, start cfg E = .ok h := by
  have := capture_ok ([] : List S) (List.replicate (inputDelay cfg.inputChannels cfg.sampleRate) 0) (by
    rw [List.length_replicate, delay_eq _ _ hsr]
    simpa using hroom)
  exact ⟨_, ok_bind this⟩

theorem fits_of_play [Zero S] [Add S] {ops : NodeOps S P C} {cfg : LiveConfig} {h h' : LiveHost S P} {data out : List S}
    {arrivals : Nat → List S} {commands : List (Command P C × Luck)} {env : Nat → Env}
    (hp : play ops cfg data arrivals commands env h = .ok (h', out)) :
    0 < cfg.outputChannels ∧ data.length / cfg.outputChannels ≤ h.output.frameCount ∧
      ∃ r, receiveFrames cfg.inputChannels (data.length / cfg.outputChannels) arrivals (h.queue, h.input) = .ok r ∧
      ∀ o0, (slice h.output ⟨0, 0, h.output.channelCount, data.length / cfg.outputChannels⟩ true).clear = .ok o0 →
        data.length / cfg.outputChannels ≤ r.2.frameCount →
        ∃ o E', h.engine.process ops env commands
          (nextCall (C := C) (data.length / cfg.outputChannels) commands env r.2 o0 : Call S P C).input o0 = .ok (o, E') := by
  unfold play at hp
  split at hp
  · cases hp
  · rename_i h0
    obtain ⟨r, h1, h2⟩ := bind_ok hp
    obtain ⟨i, h3, h4⟩ := bind_ok h2
    obtain ⟨o, h5, h6⟩ := bind_ok h4
    obtain ⟨o', h7, h8⟩ := bind_ok h6
    obtain ⟨p, h9, h10⟩ := bind_ok h8
    refine ⟨by omega, sliceFrames_le h5, r, h1, ?_⟩
    intro o0 hc hle
    rw [sliceFrames_eq _ _ (sliceFrames_le h5)] at h5
    injection h5 with h5
    subst h5
    rw [hc] at h7
    injection h7 with h7
    subst h7
    rw [sliceFrames_eq _ _ hle] at h3
    injection h3 with h3
    subst h3
    exact ⟨p.1, p.2, h9⟩

theorem session_snoc [Zero S] [Add S] {ops : NodeOps S P C} {cfg : LiveConfig} {E : Processor S P}
    {events : List (LiveEvent S P C)} {e : LiveEvent S P C} {s : LiveHost S P × List (List S)} :
    session ops cfg E (events ++ [e]) = .ok s ↔ ∃ s1, session ops cfg E events = .ok s1 ∧ step ops cfg s1 e = .ok s := by
  unfold session
  constructor
  · intro h
    obtain ⟨h0, h1, h2⟩ := bind_ok h
    rw [List.foldlM_append] at h2
    obtain ⟨s1, h3, h4⟩ := bind_ok h2
    rw [List.foldlM_cons] at h4
    obtain ⟨s2, h5, h6⟩ := bind_ok h4
    injection h6 with h6
    subst h6
    exact ⟨s1, (ok_bind h1).trans h3, h5⟩
  · rintro ⟨s1, h1, h2⟩
    obtain ⟨h0, h3, h4⟩ := bind_ok h1
    rw [ok_bind h3, List.foldlM_append, ok_bind h4, List.foldlM_cons, ok_bind h2]
    rfl

theorem session_live [AddZeroClass S] {ops : NodeOps S P C} {cfg : LiveConfig} {mf mc : Nat} (hm : 0 < mf)
    (hch : cfg.inputChannels ≤ cfg.outputChannels) (hsr : cfg.sampleRate < 2 ^ 32) (events : List (LiveEvent S P C)) :
    (∀ e ∈ events, ∀ c ∈ e.commands, c.1.Api) → (∀ e ∈ events, e.Fits cfg) →
    ∀ s, session ops cfg (new cfg.sampleRate mc mf) events = .ok s → ∃ ks x, Live ops cfg mf mc events s ks x := by
  induction events using List.reverseRecOn with
  | nil =>
    intro _ _ s h
    obtain ⟨h0, h1, h2⟩ := bind_ok h
    injection h2 with h2
    subst h2
    exact ⟨_, _, start_live hsr h1⟩
  | append_singleton events e ih =>
    intro hapi hfit s h
    obtain ⟨s1, h1, h2⟩ := session_snoc.mp h
    obtain ⟨ks, x, hl⟩ := ih (fun e he => hapi e (by simp [he])) (fun e he => hfit e (by simp [he])) s1 h1
    cases e with
    | captured data => exact ⟨_, _, live_captured hl h2⟩
    | play data arrivals commands env =>
      obtain ⟨⟨h', out⟩, h3, h4⟩ := bind_ok h2
      obtain ⟨f0, f1, r, f2, f3⟩ := fits_of_play h3
      obtain ⟨g1, g2⟩ := hfit (.play data arrivals commands env) (by simp)
      have hR := receiveFrames_received hl.inWF hl.inWritable (by rw [hl.inChannels]; exact hch)
        (by rw [hl.inFrames]; exact g2) f2
      obtain ⟨o0, c1, c2, c3⟩ := play_live hm hch f0 hl hapi g1 g2 f2
      obtain ⟨o, E', f4⟩ := f3 o0 (by rw [hl.outChannels]; exact c1)
        (by rw [← hR.shape.frameCount, hl.inFrames]; exact g2)
      obtain ⟨s', y, c4, c5⟩ := c3 o E' f4
      rw [h2] at c4
      injection c4 with c4
      subst c4
      exact ⟨_, _, c5⟩

theorem playedIn_eq [Zero S] {cfg : LiveConfig} {events : List (LiveEvent S P C)} {ks : List (Call S P C)}
    (h : LiveCalls cfg events ks) : framesIn ks = playedIn cfg events := by
  unfold framesIn playedIn
  rw [h.frames]
  clear h
  induction events with
  | nil => rfl
  | cons e events ih =>
    cases e with
    | captured d => simpa [LiveEvent.plays, LiveEvent.frames] using ih
    | play d a c v =>
      rw [List.filter_cons_of_pos rfl, List.map_cons, List.map_cons, List.sum_cons, List.sum_cons, ih]

/-- A session that keeps time succeeds if the engine does. -/
theorem session_ok [AddZeroClass S] {ops : NodeOps S P C} {cfg : LiveConfig} {mf mc : Nat} (hm : 0 < mf)
    (hch : cfg.inputChannels ≤ cfg.outputChannels) (h0 : 0 < cfg.outputChannels) (hsr : cfg.sampleRate < 2 ^ 32)
    (hroom : millisecond cfg.sampleRate * cfg.inputChannels ≤ capacity)
    (events : List (LiveEvent S P C)) : (∀ e ∈ events, ∀ c ∈ e.commands, c.1.Api) → (∀ e ∈ events, e.Fits cfg) →
    KeepsTime cfg events →
    (∀ before ks, before <+: events → LiveCalls cfg before ks → ∃ E, calls ops (new cfg.sampleRate mc mf) ks = .ok E) →
    ∃ s ks x, session ops cfg (new cfg.sampleRate mc mf) events = .ok s ∧ Live ops cfg mf mc events s ks x := by
  induction events using List.reverseRecOn with
  | nil =>
    intro _ _ _ _
    obtain ⟨h, h1⟩ := start_ok (S := S) (new cfg.sampleRate mc mf : Processor S P) hsr hroom
    exact ⟨(h, []), [], _, ok_bind h1, start_live hsr h1⟩
  | append_singleton events e ih =>
    intro hapi hfit hkeep hrun
    obtain ⟨s, ks, x, h1, h2⟩ := ih (fun e he => hapi e (by simp [he])) (fun e he => hfit e (by simp [he]))
      (by
        intro before e' after he
        exact hkeep before e' (after ++ [e]) (by rw [he]; simp))
      (fun before ks hb hl => hrun before ks (hb.trans (List.prefix_append _ _)) hl)
    obtain ⟨k1, k2⟩ := hkeep events e [] rfl
    have hpl := playedIn_eq h2.calls
    have hql : s.1.queue.length = millisecond cfg.sampleRate * cfg.inputChannels + (capturedIn cfg events).length -
        playedIn cfg events * cfg.inputChannels := by
      rw [h2.queue, List.length_drop, stream_length, hpl]
    have hen := h2.enough
    rw [stream_length, hpl] at hen
    rw [capturedIn_snoc, List.length_append] at k2
    have hcap : capacity = 1024 * 1024 := rfl
    cases e with
    | captured data =>
      have hs : step ops cfg s (.captured data) = .ok ({ s.1 with queue := s.1.queue ++ data }, s.2) := by
        refine ok_bind (capture_ok s.1.queue data ?_)
        simp only [LiveEvent.captures] at k2
        omega
      exact ⟨_, _, _, session_snoc.mpr ⟨s, h1, hs⟩, live_captured h2 hs⟩
    | play data arrivals commands env =>
      obtain ⟨g1, g2⟩ := hfit (.play data arrivals commands env) (by simp)
      simp only [LiveEvent.captures, LiveEvent.frames] at k1 k2
      rw [Nat.add_mul] at k1
      obtain ⟨r, f2⟩ := receiveFrames_ok (arrivals := arrivals) (ch := cfg.inputChannels)
        (fr := data.length / cfg.outputChannels) h2.inWF h2.inWritable (by rw [h2.inChannels]; exact hch)
        (by rw [h2.inFrames]; exact g2) (q := s.1.queue) (by omega) (by rw [List.length_append]; omega)
      obtain ⟨o0, c1, c2, c3⟩ := play_live hm hch h0 h2 hapi g1 g2 f2
      obtain ⟨E, hE⟩ := hrun _ _ (List.prefix_refl _) c2
      obtain ⟨E1, e1, e2⟩ := (calls_append _ _ _ _).mp hE
      rw [h2.run] at e1
      injection e1 with e1
      subst e1
      obtain ⟨o, E2, e3, _⟩ := calls_cons e2
      obtain ⟨s', y, c4, c5⟩ := c3 o E2 e3
      exact ⟨_, _, _, session_snoc.mpr ⟨s, h1, c4⟩, c5⟩

/-! ## What is played, as one signal -/

theorem flatten_played {ch : Nat} (ks : List (Call S P C)) : ∀ (outs : List (List S)) (x : Nat → Nat → S),
    outs.length = ks.length → (∀ i k, ks[i]? = some k → outs[i]? = some (interleaved ch k.output.frameCount
      fun c f => x c (framesIn (ks.take i) + f))) → outs.flatten = interleaved ch (framesIn ks) x := by
  induction ks with
  | nil =>
    intro outs x hl _
    obtain rfl := List.length_eq_zero_iff.mp hl
    rfl
  | cons k ks ih =>
    intro outs x hl h
    cases outs with
    | nil => cases hl
    | cons o outs =>
      have h0 := h 0 k rfl
      simp only [List.getElem?_cons_zero, Option.some.injEq, List.take_zero] at h0
      have e : framesIn (k :: ks) = k.output.frameCount + framesIn ks := by simp [framesIn]
      rw [e, Wav.interleaved_add, List.flatten_cons, h0, ih outs (fun c f => x c (k.output.frameCount + f))
        (by simpa using hl)]
      · congr 1
        apply Wav.interleaved_congr
        intro c f _ _
        simp [framesIn]
      · intro i k' hk'
        have := h (i + 1) k' (by simpa using hk')
        simp only [List.getElem?_cons_succ, List.take_succ_cons] at this
        rw [this]
        congr 1
        apply Wav.interleaved_congr
        intro c f _ _
        simp only [framesIn, List.map_cons, List.sum_cons]
        rw [Nat.add_assoc]

theorem sessionInput_eq [Zero S] {fromInput : Bool} {mc ch : Nat} (ks : List (Call S P C)) : ∀ (w : Nat → Nat → S),
    (∀ c f, ch ≤ c → w c f = 0) → (∀ k ∈ ks, k.input.channelCount = ch) →
    (∀ i k, ks[i]? = some k → ∀ c f, c < ch → f < k.output.frameCount →
      k.input.sample? c f = some (w c (framesIn (ks.take i) + f))) →
    sessionInput fromInput mc ks =
      fun c f => if fromInput = true ∧ c < mc ∧ f < framesIn ks then w c f else 0 := by
  induction ks with
  | nil =>
    intro w _ _ _
    funext c f
    simp [sessionInput, silence, framesIn]
  | cons k ks ih =>
    intro w hw hc h
    have e : framesIn (k :: ks) = k.output.frameCount + framesIn ks := by simp [framesIn]
    rw [sessionInput, ih (fun c f => w c (k.output.frameCount + f)) (fun c f hc => hw c _ hc)
      (fun k' hk' => hc k' (by simp [hk']))]
    · funext c f
      simp only [followed]
      by_cases hf : f < k.output.frameCount
      · rw [if_pos hf]
        by_cases hcc : fromInput = true ∧ c < mc
        · rw [if_pos hcc, if_pos ⟨hcc.1, hcc.2, by omega⟩]
          unfold sampleOrSilence
          by_cases hch : c < ch
          · rw [h 0 k rfl c f hch hf]
            simp [framesIn]
          · rw [sample?_eq_none _ _ _ (by rw [hc k (by simp)]; omega), hw c f (by omega)]
            rfl
        · rw [if_neg hcc, if_neg (by tauto)]
      · rw [if_neg hf]
        by_cases hcc : fromInput = true ∧ c < mc ∧ f < framesIn (k :: ks)
        · rw [if_pos hcc, if_pos ⟨hcc.1, hcc.2.1, by omega⟩, Nat.add_sub_cancel' (by omega)]
        · rw [if_neg hcc, if_neg (by rw [e] at hcc; exact fun h' => hcc ⟨h'.1, h'.2.1, by omega⟩)]
    · intro i k' hk' c f hc hf
      have := h (i + 1) k' (by simpa using hk') c f hc hf
      rw [this]
      simp only [List.take_succ_cons, framesIn, List.map_cons, List.sum_cons, Nat.add_assoc]

end LiveHost
end Rawdio
