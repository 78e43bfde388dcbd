import Verif.Lemmas.SamplerNode
import Verif.Props.Chain
import Verif.Props.Sampler

/-!
# A sampler in an engine (C82)
-/

namespace Rawdio
namespace Sampler

open Processor

variable {S : Type} [AddZeroClass S] [Mul S] [One S]

/-- C82: whatever events are sent and when, and however the frames are divided into process calls: frame `F` of the
session leaves the engine as frame `F` of what the sampler plays (C40 to C42, C64). The sample has the rate of the
engine, loops end after they start, and blocks are at most 2^33 divided by the sample rate long. -/
theorem C82_stream (id : Id) (sample : Grid S) (fade : Fade S) (hL : 0 < fade.values.length) (mf mc sr : Nat)
    (hm : 0 < mf) (h0 : 0 < sr) (h1 : sr < 2 ^ 32) (hlen : mf * sr ≤ 2 ^ 33)
    (changes : Nat → List (Id × SamplerEvent)) (hch : ∀ i, ∀ x ∈ changes i, x.1 = id ∧ ProperLoop x.2)
    (ks : List (Call S (Sampler S) SamplerEvent)) (k : Call S (Sampler S) SamplerEvent)
    (hks : ∀ l ∈ ks ++ [k], l.Valid) (hp : PlaysChain false [Sampler.node id sr sample fade] changes (ks ++ [k]))
    (E E' : Processor S (Sampler S)) (hE : calls ops (Processor.new sr mc mf) ks = .ok E) (o : Buf S)
    (h : E.process ops k.env k.commands k.input k.output = .ok (o, E')) :
    ∃ es fuel t outs, ChainHistory mf sr changes (ks ++ [k]) es ∧
      run fuel (Sampler.new sr sample fade) (blocks sample.channels [] es) = .ok (t, outs) ∧
      ∀ c f, c < k.output.channelCount → f < k.output.frameCount → o.sample? c f = some
        (if c < mc ∧ c < sample.channels then joined (blocks sample.channels [] es) outs c (framesIn ks + f) else 0) := by
  obtain ⟨es, y, ds', a1, a2, a3⟩ := Chain.C81_stream ops false _ (by simp) mf mc sr hm changes ks k hks hp E E' hE o h
  obtain ⟨fuel, t, outs, b1, b2⟩ := chain_run (s := Sampler.new sr sample fade) (acc := []) hlen id es
    (new_good sr h0 h1 sample fade hL) rfl (by simp) (by
      intro e he
      have := history_events hm a1 e he
      cases e with
      | change i c => obtain ⟨j, hj⟩ := this; exact hch j _ hj
      | block t n => exact this) a2
  refine ⟨es, fuel, t, outs, a1, b1, ?_⟩
  intro c f hc hf
  have ht := Chain.history_total a1
  rw [Gain.framesIn_append] at ht
  rw [a3 c f hc hf, b2 c _ (by omega)]
  change some (if c < mc then if c < sample.channels then _ else 0 else 0) = _
  by_cases hcm : c < mc
  · by_cases hcs : c < sample.channels
    · rw [if_pos hcm, if_pos hcs, if_pos ⟨hcm, hcs⟩]; rfl
    · rw [if_pos hcm, if_neg hcs, if_neg (fun h => hcs h.2)]
  · rw [if_neg hcm, if_neg (fun h => hcm h.1)]

/-- C82: all process calls of such a session return. -/
theorem C82_runs (id : Id) (sample : Grid S) (fade : Fade S) (hL : 0 < fade.values.length) (mf mc sr : Nat)
    (hm : 0 < mf) (h0 : 0 < sr) (h1 : sr < 2 ^ 32) (hlen : mf * sr ≤ 2 ^ 33) (hmc : sample.channels ≤ mc)
    (changes : Nat → List (Id × SamplerEvent)) (hch : ∀ i, ∀ x ∈ changes i, x.1 = id ∧ ProperLoop x.2)
    (ks : List (Call S (Sampler S) SamplerEvent)) (hks : ∀ l ∈ ks, l.Valid)
    (hp : PlaysChain false [Sampler.node id sr sample fade] changes ks) :
    ∃ E, calls ops (Processor.new sr mc mf) ks = .ok E := by
  refine Chain.C81_runs ops mf mc sr hm _ _ (sampler_healthy mf sr hlen) false _ (by simp) ?_ ?_ (by simp) (by simp)
    changes ?_ ks hks hp
  · intro d hd
    rw [List.mem_singleton] at hd
    subst hd
    exact ⟨_, [], new_good sr h0 h1 sample fade hL, by simp, rfl, rfl, rfl⟩
  · intro d hd
    rw [List.mem_singleton] at hd
    subst hd
    exact ⟨Nat.zero_le _, hmc⟩
  · intro i x hx
    obtain ⟨x1, x2⟩ := hch i x hx
    exact ⟨by simp [Sampler.node, x1], x2⟩

/-- What leaves the engine in call `j` of a session whose sampler plays its sample at frame `M`. -/
theorem heard_of_run (id : Id) (sample : Grid S) (fade : Fade S) (hL : 0 < fade.values.length) (mf mc sr : Nat)
    (hm : 0 < mf) (h0 : 0 < sr) (h1 : sr < 2 ^ 32) (hlen : mf * sr ≤ 2 ^ 33) (i : Nat) (e : SamplerEvent)
    (he : ProperLoop e) (ks : List (Call S (Sampler S) SamplerEvent)) (hks : ∀ l ∈ ks, l.Valid)
    (hp : PlaysChain false [Sampler.node id sr sample fade] (sendsOnly id i e) ks)
    {es : List (ChainEvent SamplerEvent)} (hes : ChainHistory mf sr (sendsOnly id i e) ks es)
    {M fuel : Nat} {t : Sampler S} (hr : run fuel (Sampler.new sr sample fade) (blocks sample.channels [] es) =
      .ok (t, startedAt sample M 0 (blocks sample.channels [] es)))
    {j : Nat} {k : Call S (Sampler S) SamplerEvent} (hj : ks[j]? = some k) {E E' : Processor S (Sampler S)}
    (hE : calls ops (Processor.new sr mc mf) (ks.take j) = .ok E) {o : Buf S}
    (h : E.process ops k.env k.commands k.input k.output = .ok (o, E')) :
    ∀ c f, c < k.output.channelCount → f < k.output.frameCount → o.sample? c f =
      some (if c < mc then playsAt sample M c (framesIn (ks.take j) + f) else 0) := by
  have hjl : j < ks.length := by
    by_contra hn; rw [List.getElem?_eq_none (by omega)] at hj; cases hj
  have hpre : ks.take j ++ [k] <+: ks := by
    have : ks.take (j + 1) = ks.take j ++ [k] := by
      rw [List.take_add_one, hj]; rfl
    rw [← this]
    exact List.take_prefix _ _
  obtain ⟨gs, f', t', outs, a1, a2, a3⟩ := C82_stream id sample fade hL mf mc sr hm h0 h1 hlen (sendsOnly id i e)
    (by
      intro n x hx
      rw [sendsOnly] at hx
      split at hx
      · rw [List.mem_singleton] at hx; subst hx; exact ⟨rfl, he⟩
      · cases hx) (ks.take j) k (fun l hl => hks l (hpre.subset hl))
    (by
      intro n l hl
      apply hp n l
      obtain ⟨rest, hrest⟩ := hpre
      rw [← hrest, List.getElem?_append_left (by
        by_contra hn; rw [List.getElem?_eq_none (by omega)] at hl; cases hl)]
      exact hl) E E' hE o h
  obtain ⟨rest, hrest⟩ := blocks_prefix (S := S) sample.channels (history_prefix hm h0 (by omega) hes hpre a1)
  rw [← hrest] at hr
  obtain ⟨u, u1, _⟩ := run_prefix _ _ hr
  rw [startedAt_take] at u1
  have := run_unique a2 u1
  simp only [Prod.mk.injEq] at this
  intro c f hc hf
  rw [a3 c f hc hf, this.2]
  have ht := Chain.history_total a1
  rw [Gain.framesIn_append] at ht
  obtain ⟨o1, o2⟩ := blocks_out (S := S) sample.channels gs []
  by_cases hcm : c < mc
  · rw [if_pos hcm]
    by_cases hcs : c < sample.channels
    · rw [if_pos ⟨hcm, hcs⟩, joined_started sample M _ 0 o1 c _ (by rw [o2]; omega), Nat.zero_add]
    · rw [if_neg (fun h => hcs h.2), playsAt, if_neg (fun h => hcs h.1)]
  · rw [if_neg hcm, if_neg (fun h => hcm h.1)]

/-- Sessions have a history. -/
theorem history_of_calls (id : Id) (sample : Grid S) (fade : Fade S) (mf mc sr : Nat) (hm : 0 < mf)
    (changes : Nat → List (Id × SamplerEvent)) (ks : List (Call S (Sampler S) SamplerEvent)) (hks : ∀ l ∈ ks, l.Valid)
    (hp : PlaysChain false [Sampler.node id sr sample fade] changes ks)
    {E : Processor S (Sampler S)} (hE : calls ops (Processor.new sr mc mf) ks = .ok E) :
    ∃ es, ChainHistory mf sr changes ks es := by
  rcases List.eq_nil_or_concat ks with rfl | ⟨ks, k, rfl⟩
  · exact ⟨[], .nil⟩
  · rw [List.concat_eq_append] at *
    obtain ⟨E1, h1, h2⟩ := (calls_append ks [k] _ _).mp hE
    obtain ⟨o, E2, h3, _⟩ := calls_cons h2
    obtain ⟨es, _, _, a1, _⟩ := Chain.C81_stream ops false _ (by simp) mf mc sr hm changes ks k hks hp E1 E2 h1 o h3
    exact ⟨es, a1⟩

/-- C82: a sampler told to start now, before call `i`, is heard from the first frame of that call on: its sample once,
from the first frame to the last, and nothing else. At most 2^32 divided by the sample rate blocks, less 2, are played
(89476 at 48 kHz). -/
theorem C82_starts_now (id : Id) (sample : Grid S) (fade : Fade S) (hL : 0 < fade.values.length) (mf mc sr : Nat)
    (hm : 0 < mf) (h0 : 0 < sr) (h1 : sr < 2 ^ 32) (hlen : mf * sr ≤ 2 ^ 33) (i n : Nat)
    (ks : List (Call S (Sampler S) SamplerEvent)) (hks : ∀ l ∈ ks, l.Valid)
    (hp : PlaysChain false [Sampler.node id sr sample fade] (sendsOnly id i (.startNow n)) ks)
    (hfew : (blocksIn mf ks + 2) * sr ≤ 2 ^ 32) (F : Processor S (Sampler S))
    (hF : calls ops (Processor.new sr mc mf) ks = .ok F) (j : Nat) (k : Call S (Sampler S) SamplerEvent)
    (hj : ks[j]? = some k) (E E' : Processor S (Sampler S))
    (hE : calls ops (Processor.new sr mc mf) (ks.take j) = .ok E) (o : Buf S)
    (h : E.process ops k.env k.commands k.input k.output = .ok (o, E')) (c f : Nat) (hc : c < k.output.channelCount)
    (hf : f < k.output.frameCount) : o.sample? c f = some
      (if c < mc then playsAt sample (framesIn (ks.take i)) c (framesIn (ks.take j) + f) else 0) := by
  obtain ⟨es, hes⟩ := history_of_calls id sample fade mf mc sr hm _ ks hks hp hF
  obtain ⟨M, fuel, t, m1, m2⟩ := session_blocks hm h0 h1 sample fade hL hes (fun M => M = framesIn (ks.take i))
    ⟨_, le_refl _, rfl⟩ (by
      intro s F b bs hs hpe hbu hsr hF hb hbs hfr _ hle _
      have hgood : s.Good := ⟨hs.ok, (by intro v hv; rw [hs.active] at hv; cases hv),
        (by rw [hs.loop]; intro a b hab; cases hab), (by rw [hpe]; exact List.Pairwise.nil), (by rw [hpe]; simp), hs.channel⟩
      obtain ⟨g, u, hu⟩ := C64_plays_once s hgood hs.loop hpe hs.some hs.stopped n b bs hb (hfr b (by simp)).2
        (hfr b (by simp)).1 (fun c hc => ⟨hbs c hc, (hfr c (by simp [hc])).1⟩) (by
          rw [hsr]
          exact le_trans (Nat.mul_le_mul_right _ (by omega)) hfew)
      refine ⟨F, g, u, le_refl _, hF, ?_⟩
      rw [hu, startedAt_played sample F (b :: bs) F 0 rfl, hbu])
  subst m1
  exact heard_of_run id sample fade hL mf mc sr hm h0 h1 hlen i _ (by intro a b hab; cases hab) ks hks hp hes m2 hj hE
    h c f hc hf

/-- C82, the full claim: a sampler told to start at the time of frame `N`, before that frame, is heard from frame `N`
on. -/
def StartsOnTheFrame (sample : Grid S) (fade : Fade S) (mf mc sr : Nat) : Prop :=
  ∀ (id i n N : Nat) (ks : List (Call S (Sampler S) SamplerEvent)), (∀ l ∈ ks, l.Valid) →
    PlaysChain false [Sampler.node id sr sample fade]
      (sendsOnly id i (.start n (Timestamp.fromSamples (N : ℚ) sr) 0)) ks →
    framesIn (ks.take i) ≤ N → ∀ j k E E' o, ks[j]? = some k →
    calls ops (Processor.new sr mc mf) (ks.take j) = .ok E →
    E.process ops k.env k.commands k.input k.output = .ok (o, E') →
    ∀ c f, c < k.output.channelCount → f < k.output.frameCount →
      o.sample? c f = some (if c < mc then playsAt sample N c (framesIn (ks.take j) + f) else 0)

/-- C82, the part that holds: it is heard from frame `N` on or from the frame before: its sample once, from the first
frame to the last, and nothing else.  What is missing: that it is not the frame before, see
`C82_starts_on_the_frame_violated`; and sessions of more than 2^32 divided by the sample rate blocks, less 5. -/
theorem C82_starts_on_the_frame_partial (id : Id) (sample : Grid S) (fade : Fade S) (hL : 0 < fade.values.length)
    (mf mc sr : Nat) (hm : 0 < mf) (h0 : 0 < sr) (hlen : mf * sr ≤ 2 ^ 33) (i n N : Nat)
    (ks : List (Call S (Sampler S) SamplerEvent)) (hks : ∀ l ∈ ks, l.Valid)
    (hp : PlaysChain false [Sampler.node id sr sample fade]
      (sendsOnly id i (.start n (Timestamp.fromSamples (N : ℚ) sr) 0)) ks)
    (hN : framesIn (ks.take i) ≤ N) (hfew : (blocksIn mf ks + 5) * sr ≤ 2 ^ 32) (F : Processor S (Sampler S))
    (hF : calls ops (Processor.new sr mc mf) ks = .ok F) :
    ∃ M, (M = N ∨ M + 1 = N) ∧ ∀ j k E E' o, ks[j]? = some k →
      calls ops (Processor.new sr mc mf) (ks.take j) = .ok E →
      E.process ops k.env k.commands k.input k.output = .ok (o, E') →
      ∀ c f, c < k.output.channelCount → f < k.output.frameCount →
        o.sample? c f = some (if c < mc then playsAt sample M c (framesIn (ks.take j) + f) else 0) := by
  have h1 : sr < 2 ^ 32 := by
    have : 5 * sr ≤ (blocksIn mf ks + 5) * sr := Nat.mul_le_mul_right _ (by omega)
    omega
  obtain ⟨es, hes⟩ := history_of_calls id sample fade mf mc sr hm _ ks hks hp hF
  obtain ⟨M, fuel, t, m1, m2⟩ := session_blocks hm h0 h1 sample fade hL hes (fun M => M = N ∨ M + 1 = N)
    ⟨N, hN, Or.inl rfl⟩ (by
      intro s F b bs hs hpe hbu hsr hF hb hbs hfr hon hle _
      subst hsr
      obtain ⟨M, g, u, u1, u2, u3⟩ := timed_run n N bs b s F hs (by rw [hpe, hb, List.nil_append]) hbs
        (fun c hc => (hfr c hc).1) hon (by omega) (by
          refine le_trans (Nat.mul_le_mul_right _ ?_) hfew
          omega)
      exact ⟨M, g, u, u1, u2, by rw [u3, hbu]⟩)
  refine ⟨M, m1, ?_⟩
  intro j k E E' o hj hE h
  exact heard_of_run id sample fade hL mf mc sr hm h0 h1 hlen i _ (by intro a b hab; cases hab) ks hks hp hes m2 hj hE h

/-! ### Examples -/

/-- Four frames, for examples. -/
def fourFrames : Grid Int := ⟨1, 4, fun _ f => f + 1⟩

/-- A process call of eight frames in which the sampler is made, connected, and told something. -/
def firstCall (e : SamplerEvent) : Call Int (Sampler Int) SamplerEvent :=
  ⟨((chainProgram false [Sampler.node 1 48000 fourFrames ⟨[0, 1]⟩]).map ApiCall.command ++
      [Command.change 1 e]).map fun x => (x, .plain),
    .owned (List.replicate 8 0) 1 8 48000, .owned (List.replicate 8 0) 1 8 48000, fun _ => Env.plain⟩

theorem firstCall_valid (e : SamplerEvent) : (firstCall e).Valid := by
  refine ⟨?_, ?_, trivial, le_refl _, ?_⟩
  · simp [firstCall, Buf.WF]
  · simp [firstCall, Buf.WF]
  · intro x hx
    obtain ⟨y, hy, rfl⟩ := List.mem_map.mp hx
    rw [List.mem_append, List.mem_map] at hy
    rcases hy with ⟨a, _, rfl⟩ | hy
    · exact command_api a
    · rw [List.mem_singleton] at hy; subst hy; trivial

theorem firstCall_plays (e : SamplerEvent) :
    PlaysChain false [Sampler.node 1 48000 fourFrames ⟨[0, 1]⟩] (sendsOnly 1 0 e) [firstCall e] := by
  intro i k hk
  match i with
  | 0 =>
    simp only [List.getElem?_cons_zero, Option.some.injEq] at hk
    subst hk
    simp [ApiCall.command, firstCall, sendsOnly, Function.comp_def]
  | i + 1 => simp at hk

theorem firstCall_runs (e : SamplerEvent) (he : ProperLoop e) :
    ∃ o E, (Processor.new 48000 2 16).process ops (firstCall e).env (firstCall e).commands (firstCall e).input
      (firstCall e).output = .ok (o, E) ∧ calls ops (Processor.new 48000 2 16) [firstCall e] = .ok E := by
  obtain ⟨E, hE⟩ := C82_runs 1 fourFrames ⟨[0, 1]⟩ (by simp) 16 2 48000 (by norm_num) (by norm_num) (by norm_num)
    (by norm_num) (by simp [fourFrames]) _ (by
      intro i x hx
      rw [sendsOnly] at hx
      split at hx
      · rw [List.mem_singleton] at hx; subst hx; exact ⟨rfl, he⟩
      · cases hx) [firstCall e] (by simpa using firstCall_valid e) (firstCall_plays e)
  obtain ⟨o, E1, h1, h2⟩ := calls_cons hE
  rw [calls] at h2
  cases h2
  exact ⟨o, E, h1, hE⟩

/-- C82 is violated: at 48 kHz the time of frame 1 is rounded down, and a sampler told to start then starts at frame
0. -/
theorem C82_starts_on_the_frame_violated : ¬ StartsOnTheFrame fourFrames ⟨[0, 1]⟩ 16 2 48000 := by
  intro hall
  have hT : Timestamp.fromSamples ((1 : Nat) : ℚ) 48000 = 89478 := by
    rw [Timestamp.fromSamples, Timestamp.fromSeconds]; norm_num [Timestamp.one, Timestamp.roundHalfEven]
  have hT8 : Timestamp.fromSamples ((8 : Nat) : ℚ) 48000 = 715828 := by
    rw [Timestamp.fromSamples, Timestamp.fromSeconds]; norm_num [Timestamp.one, Timestamp.roundHalfEven]
  have hT0 : Timestamp.fromSamples ((0 : Nat) : ℚ) 48000 = 0 := by
    rw [Timestamp.fromSamples, Timestamp.fromSeconds]; norm_num [Timestamp.one, Timestamp.roundHalfEven]
  obtain ⟨e, he⟩ : ∃ e, e = SamplerEvent.start 0 (Timestamp.fromSamples ((1 : Nat) : ℚ) 48000) 0 := ⟨_, rfl⟩
  have hpl : ProperLoop e := by rw [he]; intro a b hab; cases hab
  obtain ⟨o, E, h1, h2⟩ := firstCall_runs e hpl
  have hv : ∀ l ∈ [firstCall e], l.Valid := by simpa using firstCall_valid e
  have hp := firstCall_plays e
  have hbad := hall 1 0 0 1 [firstCall e] hv (by rw [← he]; exact hp) (by simp [framesIn]) 0 (firstCall e) _ E o
    rfl rfl h1 0 0 (by simp [firstCall, Buf.channelCount]) (by simp [firstCall, Buf.frameCount])
  obtain ⟨es, hes⟩ := history_of_calls 1 fourFrames ⟨[0, 1]⟩ 16 2 48000 (by norm_num) _ _ hv hp h2
  obtain ⟨M, fuel, t, m1, m2⟩ := session_blocks (by norm_num) (by norm_num) (by norm_num) fourFrames ⟨[0, 1]⟩ (by simp)
    hes (fun M => M = 0) ⟨0, by simp [framesIn], rfl⟩ (by
      intro s F b bs hs hpe hbu hsr hF hb hbs hfr hon hle htot
      have hF0 : F = 0 := by rw [hF]; simp [framesIn]
      subst hF0
      have hst := (hfr b (by simp)).2
      have hst1 : b.start ≤ 1 := by
        have := hon.1
        simp only [Nat.cast_zero, zero_div, zero_mul, sub_zero] at this
        have := (abs_le.mp this).2
        exact_mod_cast this
      have hb1 : bs = [] := by
        have : bs.length + 1 ≤ 1 := by simpa [blocksIn, firstCall, Buf.frameCount] using hle
        exact List.length_eq_zero_iff.mp (by omega)
      subst hb1
      have hb8 : b.out.frames = 8 := by simpa [framesIn, firstCall, Buf.frameCount] using htot
      have hn := (hfr b (by simp)).1
      have hT2 : (89478 : Int) < Timestamp.incrementedBySamples b.start b.out.frames 48000 := by
        rw [hb8, Timestamp.incrementedBySamples, hT8]
        omega
      obtain ⟨f, u, f1, f2, f3, f4, f5⟩ := fire_block hs b.sent 0 89478 (by rw [hpe, hb, he, hT]; rfl) b.out b.start 0
        (by
          rw [hsr]
          simp only [EventProcessor.framePosition]
          rw [max_eq_left (by omega), Timestamp.asSamples, Timestamp.asSeconds]
          have h : ⌊((89478 - b.start : Int) : ℚ) / Timestamp.one * (48000 : ℕ)⌋ = 0 := by
            rw [Int.floor_eq_zero_iff]
            have c0 : (0 : ℚ) ≤ b.start := by exact_mod_cast hst
            have c1 : (b.start : ℚ) ≤ 1 := by exact_mod_cast hst1
            constructor <;> · push_cast; rw [Timestamp.one]; norm_num; linarith
          rw [h]; rfl) hn (by rw [hsr]; exact hT2) (by
          rw [hsr]
          have : Timestamp.incrementedBySamples b.start 0 48000 = b.start := by
            rw [Timestamp.incrementedBySamples, hT0, add_zero]
          rw [this]
          have c1 : (b.start : ℚ) ≤ 1 := by exact_mod_cast hst1
          push_cast
          linarith) (by rw [hsr]; norm_num)
      refine ⟨0, f, u, le_refl _, rfl, ?_⟩
      rw [run]
      simp only [bind]
      rw [f1, hbu]
      simp only [Except.bind, run, startedAt]
      congr 3
      refine Grid.ext' rfl rfl fun c i => ?_
      rw [playedPart, Grid.changed_mk]
      simp only [Nat.zero_add, Nat.sub_zero]
      split_ifs <;> first | rfl | (exfalso; omega))
  subst m1
  have hgood := heard_of_run 1 fourFrames ⟨[0, 1]⟩ (by simp) 16 2 48000 (by norm_num) (by norm_num) (by norm_num)
    (by norm_num) 0 e hpl [firstCall e] hv hp hes m2 (j := 0) rfl rfl h1 0 0 (by simp [firstCall, Buf.channelCount])
    (by simp [firstCall, Buf.frameCount])
  rw [hgood] at hbad
  simp [playsAt, framesIn, fourFrames] at hbad

/-- The hypotheses of `C82_stream` and `C82_runs`, of `C82_starts_now`, and of `C82_starts_on_the_frame_partial`: one
call. -/
example (e : SamplerEvent) (he : ProperLoop e) : ∃ o E', (∀ l ∈ [] ++ [firstCall e], l.Valid) ∧
    (∀ i, ∀ x ∈ sendsOnly 1 0 e i, x.1 = 1 ∧ ProperLoop x.2) ∧ fourFrames.channels ≤ 2 ∧
    PlaysChain false [Sampler.node 1 48000 fourFrames ⟨[0, 1]⟩] (sendsOnly 1 0 e) ([] ++ [firstCall e]) ∧
    (Processor.new 48000 2 16).process ops (firstCall e).env (firstCall e).commands (firstCall e).input
      (firstCall e).output = .ok (o, E') := by
  obtain ⟨o, E, h1, _⟩ := firstCall_runs e he
  refine ⟨o, E, by simpa using firstCall_valid e, ?_, by simp [fourFrames], firstCall_plays e, h1⟩
  intro i x hx
  rw [sendsOnly] at hx
  split at hx
  · rw [List.mem_singleton] at hx; subst hx; exact ⟨rfl, he⟩
  · cases hx

/-- A sampler started now is heard at once: the four frames of the sample and then silence. -/
example : ∃ o E, (Processor.new 48000 2 16).process ops (firstCall (.startNow 0)).env (firstCall (.startNow 0)).commands
      (firstCall (.startNow 0)).input (firstCall (.startNow 0)).output = .ok (o, E) ∧
    ∀ f, f < 8 → o.sample? 0 f = some (if f < 4 then (f : Int) + 1 else 0) := by
  obtain ⟨o, E, h1, h2⟩ := firstCall_runs (.startNow 0) (by intro a b hab; cases hab)
  refine ⟨o, E, h1, fun f hf => ?_⟩
  rw [C82_starts_now 1 fourFrames ⟨[0, 1]⟩ (by simp) 16 2 48000 (by norm_num) (by norm_num) (by norm_num)
    (by norm_num) 0 0 [firstCall (.startNow 0)] (by simpa using firstCall_valid _) (firstCall_plays _)
    (by simp [blocksIn, firstCall, Buf.frameCount]) E h2 0 _ rfl _ E rfl o h1 0 f
    (by simp [firstCall, Buf.channelCount]) (by simpa [firstCall, Buf.frameCount] using hf)]
  simp [playsAt, framesIn, fourFrames]

/-- A sampler started at the time of frame 4 is heard from frame 3 or 4 on. -/
example : ∃ o E M, (Processor.new 48000 2 16).process ops (firstCall (.start 0 (Timestamp.fromSamples (4 : ℕ) 48000) 0)).env
      (firstCall (.start 0 (Timestamp.fromSamples (4 : ℕ) 48000) 0)).commands
      (firstCall (.start 0 (Timestamp.fromSamples (4 : ℕ) 48000) 0)).input
      (firstCall (.start 0 (Timestamp.fromSamples (4 : ℕ) 48000) 0)).output = .ok (o, E) ∧
    (M = 4 ∨ M + 1 = 4) ∧ o.sample? 0 M = some 1 := by
  obtain ⟨o, E, h1, h2⟩ := firstCall_runs (.start 0 (Timestamp.fromSamples (4 : ℕ) 48000) 0) (by intro a b hab; cases hab)
  obtain ⟨M, m1, m2⟩ := C82_starts_on_the_frame_partial 1 fourFrames ⟨[0, 1]⟩ (by simp) 16 2 48000 (by norm_num)
    (by norm_num) (by norm_num) 0 0 4 [firstCall _] (by simpa using firstCall_valid _) (firstCall_plays _)
    (by simp [framesIn]) (by simp [blocksIn, firstCall, Buf.frameCount]) E h2
  refine ⟨o, E, M, h1, m1, ?_⟩
  rw [m2 0 _ _ E o rfl rfl h1 0 M (by simp [firstCall, Buf.channelCount])
    (by simp only [firstCall, Buf.frameCount]; omega)]
  simp [playsAt, framesIn, fourFrames]

end Sampler
end Rawdio
