import Verif.Lemmas.LiveSession
import Verif.Props.Chain
import Mathlib.Tactic.IntervalCases

/-!
# The live host (C85)
-/

namespace Rawdio
namespace LiveHost

open Buf DspGraph Processor Chain

variable {S P C : Type}

/-- C85: the silence that is sent before the input is a millisecond of it, rounded up to frames. -/
theorem C85_delay (channels sampleRate : Nat) (h : sampleRate < 2 ^ 32) :
    inputDelay channels sampleRate = millisecond sampleRate * channels := delay_eq channels sampleRate h

/-- C85: whatever the engine plays and however the callbacks of the two devices are interleaved, the engine is called
once for every block that is to be played, with what is captured, frame after frame and none of them twice, a
millisecond later; what it puts out is played. -/
theorem C85_calls [AddZeroClass S] (ops : NodeOps S P C) (cfg : LiveConfig) (mf mc : Nat) (hm : 0 < mf)
    (hch : cfg.inputChannels ≤ cfg.outputChannels) (hsr : cfg.sampleRate < 2 ^ 32) (events : List (LiveEvent S P C))
    (hapi : ∀ e ∈ events, ∀ c ∈ e.commands, c.1.Api) (hfit : ∀ e ∈ events, e.Fits cfg)
    (h : LiveHost S P) (played : List (List S))
    (hs : session ops cfg (new cfg.sampleRate mc mf) events = .ok (h, played)) :
    ∃ (ks : List (Call S P C)) (x : Nat → Nat → S), LiveCalls cfg events ks ∧
      calls ops (new cfg.sampleRate mc mf) ks = .ok h.engine ∧
      (∀ i k E1 o E2, ks[i]? = some k → calls ops (new cfg.sampleRate mc mf) (ks.take i) = .ok E1 →
        E1.process ops k.env k.commands k.input k.output = .ok (o, E2) → ∀ c f, c < cfg.outputChannels →
        f < k.output.frameCount → o.sample? c f = some (x c (framesIn (ks.take i) + f))) ∧
      played.length = ks.length ∧ (∀ i k, ks[i]? = some k → played[i]? = some
        (interleaved cfg.outputChannels k.output.frameCount fun c f => x c (framesIn (ks.take i) + f))) := by
  obtain ⟨ks, x, hl⟩ := session_live hm hch hsr events hapi hfit _ hs
  exact ⟨ks, x, hl.calls, hl.run, hl.heard, hl.count, hl.played⟩

theorem playsChain_of_live [Zero S] {cfg : LiveConfig} {fromInput : Bool} {ds : List (Dsp P)}
    {changes : Nat → List (Id × C)} {events : List (LiveEvent S P C)} (hp : ∀ i e,
      (events.filter LiveEvent.plays)[i]? = some e → e.commands.map Prod.fst =
        (if i = 0 then (chainProgram fromInput ds).map ApiCall.command else []) ++
          (changes i).map fun x => (ApiCall.change ⟨x.1, 0⟩ x.2).command)
    {before : List (LiveEvent S P C)} (hb : before <+: events) {ks : List (Call S P C)} (hl : LiveCalls cfg before ks) :
    PlaysChain fromInput ds changes ks := by
  intro i k hk
  have h1 : (ks.map Call.commands)[i]? = some k.commands := by rw [List.getElem?_map, hk]; rfl
  rw [hl.commands, List.getElem?_map] at h1
  obtain ⟨e, he, h1⟩ := Option.map_eq_some_iff.mp h1
  rw [← h1]
  obtain ⟨rest, rfl⟩ := hb
  refine hp i e ?_
  rw [List.filter_append, List.getElem?_append_left]
  · exact he
  · by_contra hn
    rw [List.getElem?_eq_none (by omega)] at he
    cases he

theorem api_of_plays {fromInput : Bool} {ds : List (Dsp P)} {changes : Nat → List (Id × C)}
    {events : List (LiveEvent S P C)} (hp : ∀ i e,
      (events.filter LiveEvent.plays)[i]? = some e → e.commands.map Prod.fst =
        (if i = 0 then (chainProgram fromInput ds).map ApiCall.command else []) ++
          (changes i).map fun x => (ApiCall.change ⟨x.1, 0⟩ x.2).command) :
    ∀ e ∈ events, ∀ c ∈ e.commands, c.1.Api := by
  intro e he c hc
  cases e with
  | captured d => cases hc
  | play d a cs v =>
    obtain ⟨i, hi⟩ := List.mem_iff_getElem?.mp (List.mem_filter.mpr ⟨he, rfl⟩ : _ ∈ events.filter LiveEvent.plays)
    have : c.1 ∈ cs.map Prod.fst := List.mem_map_of_mem hc
    have h1 := hp i _ hi
    simp only [LiveEvent.commands] at h1
    rw [h1, List.mem_append, List.mem_map] at this
    rcases this with h | ⟨x, _, h⟩
    · split at h
      · obtain ⟨a, _, h⟩ := List.mem_map.mp h
        rw [← h]
        exact command_api a
      · cases h
    · rw [← h]
      trivial

/-- C85: when the engine plays nodes in a row, what is played is the captured signal, a millisecond later, that has
gone through the nodes. -/
theorem C85_plays [AddZeroClass S] (ops : NodeOps S P C) (cfg : LiveConfig) (mf mc : Nat) (hm : 0 < mf)
    (hch : cfg.inputChannels ≤ cfg.outputChannels) (hsr : cfg.sampleRate < 2 ^ 32) (fromInput : Bool)
    (ds : List (Dsp P)) (hne : ds ≠ []) (changes : Nat → List (Id × C)) (events : List (LiveEvent S P C))
    (hfit : ∀ e ∈ events, e.Fits cfg) (hp : ∀ i e, (events.filter LiveEvent.plays)[i]? = some e →
      e.commands.map Prod.fst = (if i = 0 then (chainProgram fromInput ds).map ApiCall.command else []) ++
        (changes i).map fun x => (ApiCall.change ⟨x.1, 0⟩ x.2).command)
    (h : LiveHost S P) (played : List (List S))
    (hs : session ops cfg (new cfg.sampleRate mc mf) events = .ok (h, played)) :
    ∃ (ks : List (Call S P C)) (es : List (ChainEvent C)) (y : Nat → Nat → S) (ds' : List (Dsp P)),
      LiveCalls cfg events ks ∧ ChainHistory mf cfg.sampleRate changes ks es ∧
      chainRun ops cfg.sampleRate ds es (fun c f => if fromInput = true ∧ c < mc ∧ f < playedIn cfg events then
        delayedInput (millisecond cfg.sampleRate) cfg.inputChannels (capturedIn cfg events) c f else 0) = .ok (y, ds') ∧
      played.flatten = interleaved cfg.outputChannels (playedIn cfg events) fun c f => if c < mc then y c f else 0 := by
  have hapi := api_of_plays hp
  obtain ⟨ks, x, h1, h2, h3, h4, h5⟩ := C85_calls ops cfg mf mc hm hch hsr events hapi hfit h played hs
  obtain ⟨es, y, ds', c1, c2, c3⟩ := C81_session ops fromInput ds hne mf mc cfg.sampleRate hm changes ks
    (liveCalls_valid hapi h1) (playsChain_of_live hp (List.prefix_refl _) h1) h.engine h2
  rw [sessionInput_eq (ch := cfg.outputChannels) ks (delayedInput (millisecond cfg.sampleRate) cfg.inputChannels
    (capturedIn cfg events)) (by intro c f hc; exact if_neg (by omega)) (fun k hk => (h1.shape k hk).2.2.2.2.1) h1.input,
    playedIn_eq h1] at c2
  refine ⟨ks, es, y, ds', h1, c1, c2, ?_⟩
  rw [← playedIn_eq h1]
  apply flatten_played ks played _ h4
  intro i k hk
  rw [h5 i k hk]
  congr 1
  apply Wav.interleaved_congr
  intro c f hc hf
  have hi : i < ks.length := by
    by_contra hn
    rw [List.getElem?_eq_none (by omega)] at hk
    cases hk
  have hsplit : ks = ks.take i ++ k :: ks.drop (i + 1) := by
    conv_lhs => rw [← List.take_append_drop i ks]
    rw [List.drop_eq_getElem_cons hi]
    rw [List.getElem?_eq_getElem hi] at hk
    injection hk with hk
    rw [hk]
  rw [hsplit] at h2
  obtain ⟨E1, e1, e2⟩ := (calls_append _ _ _ _).mp h2
  obtain ⟨o, E2, e3, _⟩ := calls_cons e2
  have a := h3 i k E1 o E2 hk e1 e3 c f hc hf
  rw [c3 i k E1 o E2 hk e1 e3 c f (by rw [(h1.shape k (List.mem_of_getElem? hk)).1]; exact hc) hf] at a
  injection a with a
  exact a.symm

/-- C85, the part that holds of the callbacks: they return if the input has no more channels than the output, no block
is longer than announced, the input is there in time and the queue has room.  Missing: other devices and times, see
the theorems below. -/
theorem C85_callbacks_partial [AddZeroClass S] (ops : NodeOps S P C) (cfg : LiveConfig) (mf mc : Nat) (hm : 0 < mf)
    (hch : cfg.inputChannels ≤ cfg.outputChannels) (h0 : 0 < cfg.outputChannels) (hsr : cfg.sampleRate < 2 ^ 32)
    (hroom : millisecond cfg.sampleRate * cfg.inputChannels ≤ 1024 * 1024)
    (I : Dsp P → Prop) (A : Id → C → Prop) (H : Healthy ops mf cfg.sampleRate I A) (fromInput : Bool) (ds : List (Dsp P))
    (hne : ds ≠ []) (hI : ∀ d ∈ ds, I d) (hd : ∀ d ∈ ds, d.inputCount ≤ mc ∧ d.outputCount ≤ mc)
    (hn : (ds.map Dsp.id).Nodup) (hl : ds.length ≤ 1022) (changes : Nat → List (Id × C))
    (hcs : ∀ i, ∀ x ∈ changes i, x.1 ∈ ds.map Dsp.id ∧ A x.1 x.2) (events : List (LiveEvent S P C))
    (hfit : ∀ e ∈ events, e.Fits cfg) (hp : ∀ i e, (events.filter LiveEvent.plays)[i]? = some e →
      e.commands.map Prod.fst = (if i = 0 then (chainProgram fromInput ds).map ApiCall.command else []) ++
        (changes i).map fun x => (ApiCall.change ⟨x.1, 0⟩ x.2).command) (hk : KeepsTime cfg events) :
    ∃ r, session ops cfg (new cfg.sampleRate mc mf) events = .ok r := by
  have hapi := api_of_plays hp
  obtain ⟨s, _, _, h, _⟩ := session_ok (ops := ops) (mc := mc) hm hch h0 hsr hroom events hapi hfit hk (by
    intro before ks hb hlc
    exact C81_runs ops mf mc cfg.sampleRate hm I A H fromInput ds hne hI hd hn hl changes hcs ks
      (liveCalls_valid (fun e he => hapi e (hb.subset he)) hlc) (playsChain_of_live hp hb hlc))
  exact ⟨s, h⟩

/-! ## When a callback does not return -/

theorem whole_session [Zero S] [Add S] {ops : NodeOps S P C} {cfg : LiveConfig} {E : Processor S P}
    (events : List (LiveEvent S P C)) : ∀ s, session ops cfg E events = .ok s → Whole cfg s.1.input ∧
      ∀ e ∈ events, 0 < e.frames cfg.outputChannels → cfg.inputChannels ≤ cfg.outputChannels := by
  induction events using List.reverseRecOn with
  | nil =>
    intro s h
    obtain ⟨h0, h1, h2⟩ := bind_ok h
    injection h2 with h2
    subst h2
    obtain ⟨q, _, h4⟩ := bind_ok h1
    injection h4 with h4
    subst h4
    exact ⟨⟨_, rfl, by simp⟩, by simp⟩
  | append_singleton events e ih =>
    intro s h
    obtain ⟨s1, h1, h2⟩ := session_snoc.mp h
    obtain ⟨i1, i2⟩ := ih s1 h1
    have key : Whole cfg s.1.input ∧ (0 < e.frames cfg.outputChannels → cfg.inputChannels ≤ cfg.outputChannels) := by
      cases e with
      | captured data =>
        obtain ⟨q, h3, h4⟩ := bind_ok h2
        injection h4 with h4
        subst h4
        exact ⟨i1, by simp [LiveEvent.frames]⟩
      | play data arrivals commands env =>
        obtain ⟨⟨h', out⟩, h3, h4⟩ := bind_ok h2
        injection h4 with h4
        subst h4
        unfold play at h3
        split at h3
        · cases h3
        · obtain ⟨r, g1, g2⟩ := bind_ok h3
          obtain ⟨_, _, g3⟩ := bind_ok g2
          obtain ⟨_, _, g4⟩ := bind_ok g3
          obtain ⟨_, _, g5⟩ := bind_ok g4
          obtain ⟨_, _, g6⟩ := bind_ok g5
          obtain ⟨_, _, g7⟩ := bind_ok g6
          injection g7 with g7
          injection g7 with g7 g8
          subst g7
          exact whole_receiveFrames (s := (s1.1.queue, s1.1.input)) i1 g1
    refine ⟨key.1, ?_⟩
    intro e' he'
    rw [List.mem_append, List.mem_singleton] at he'
    rcases he' with he' | rfl
    · exact i2 e' he'
    · exact key.2

/-- C85: if the input has more channels than the output, no session in which anything is played succeeds. -/
theorem C85_more_inputs_abort [Zero S] [Add S] (ops : NodeOps S P C) (cfg : LiveConfig)
    (hch : cfg.outputChannels < cfg.inputChannels) (E : Processor S P) (events : List (LiveEvent S P C))
    (hplay : ∃ e ∈ events, 0 < e.frames cfg.outputChannels) (r : LiveHost S P × List (List S)) :
    session ops cfg E events ≠ .ok r := by
  intro h
  obtain ⟨e, he, h0⟩ := hplay
  have := (whole_session events r h).2 e he h0
  omega

/-- C85: no session succeeds in which more is to be played than has been captured and the millisecond before. -/
theorem C85_late_input_aborts [AddZeroClass S] (ops : NodeOps S P C) (cfg : LiveConfig) (mf mc : Nat) (hm : 0 < mf)
    (hch : cfg.inputChannels ≤ cfg.outputChannels) (hsr : cfg.sampleRate < 2 ^ 32) (events : List (LiveEvent S P C))
    (hapi : ∀ e ∈ events, ∀ c ∈ e.commands, c.1.Api) (hfit : ∀ e ∈ events, e.Fits cfg)
    (hlate : millisecond cfg.sampleRate * cfg.inputChannels + (capturedIn cfg events).length <
      playedIn cfg events * cfg.inputChannels) (r : LiveHost S P × List (List S)) :
    session ops cfg (new cfg.sampleRate mc mf) events ≠ .ok r := by
  intro h
  obtain ⟨ks, x, hl⟩ := session_live hm hch hsr events hapi hfit _ h
  have := hl.enough
  rw [stream_length, playedIn_eq hl.calls] at this
  omega

/-- C85: a block that is longer than announced is not played. -/
theorem C85_long_block_aborts [AddZeroClass S] (ops : NodeOps S P C) (cfg : LiveConfig) (mf mc : Nat) (hm : 0 < mf)
    (hch : cfg.inputChannels ≤ cfg.outputChannels) (hsr : cfg.sampleRate < 2 ^ 32) (events : List (LiveEvent S P C))
    (hapi : ∀ e ∈ events, ∀ c ∈ e.commands, c.1.Api) (hfit : ∀ e ∈ events, e.Fits cfg) (e : LiveEvent S P C)
    (hlong : cfg.maxBufferSize < e.frames cfg.outputChannels) (r : LiveHost S P × List (List S)) :
    session ops cfg (new cfg.sampleRate mc mf) (events ++ [e]) ≠ .ok r := by
  intro h
  obtain ⟨s1, h1, h2⟩ := session_snoc.mp h
  obtain ⟨ks, x, hl⟩ := session_live hm hch hsr events hapi hfit _ h1
  cases e with
  | captured data => simp [LiveEvent.frames] at hlong
  | play data arrivals commands env =>
    obtain ⟨⟨h', out⟩, h3, h4⟩ := bind_ok h2
    obtain ⟨_, f1, _⟩ := fits_of_play h3
    rw [hl.outFrames] at f1
    simp only [LiveEvent.frames] at hlong
    omega

/-- C85: the input device has to wait when more has been captured than is played and the queue has room for. -/
theorem C85_unplayed_input_waits [AddZeroClass S] (ops : NodeOps S P C) (cfg : LiveConfig) (mf mc : Nat) (hm : 0 < mf)
    (hch : cfg.inputChannels ≤ cfg.outputChannels) (hsr : cfg.sampleRate < 2 ^ 32) (events : List (LiveEvent S P C))
    (hapi : ∀ e ∈ events, ∀ c ∈ e.commands, c.1.Api) (hfit : ∀ e ∈ events, e.Fits cfg)
    (s : LiveHost S P × List (List S)) (hs : session ops cfg (new cfg.sampleRate mc mf) events = .ok s)
    (data : List S) (hne : data ≠ [])
    (hmany : playedIn cfg events * cfg.inputChannels + 1024 * 1024 <
      millisecond cfg.sampleRate * cfg.inputChannels + (capturedIn cfg events).length + data.length) :
    session ops cfg (new cfg.sampleRate mc mf) (events ++ [.captured data]) = .error .block := by
  obtain ⟨ks, x, hl⟩ := session_live hm hch hsr events hapi hfit _ hs
  have hen := hl.enough
  have hq : s.1.queue.length = _ := congrArg List.length hl.queue
  rw [List.length_drop] at hq
  rw [stream_length, playedIn_eq hl.calls] at hen hq
  have hb := capture_blocks s.1.queue data (by have : capacity = 1024 * 1024 := rfl; omega) hne
  obtain ⟨h0, h3, h4⟩ := bind_ok hs
  unfold session
  rw [ok_bind h3, List.foldlM_append, ok_bind h4, List.foldlM_cons]
  show ((step ops cfg s (.captured data)) >>= _) = _
  rw [step, hb]
  rfl

/-- A node that puts out what it is given, for examples. -/
def thru : NodeOps ℚ Unit Unit := ⟨fun s b => .ok (fun c f => (b.input c f).getD 0, s), fun s _ => .ok s⟩

/-- C85 is violated for the callbacks: an input of two channels and an output of one. -/
theorem C85_callbacks_violated : ¬ LiveCallbacksReturn ℚ Unit Unit := by
  intro h
  obtain ⟨r, hr⟩ := h thru ⟨2, 1, 48000, 4⟩ 16 2 (by norm_num) (by norm_num) (by norm_num) (by norm_num) (by norm_num)
    (by norm_num) (by norm_num) (fun s b => ⟨_, rfl⟩) (fun s r => ⟨_, rfl⟩)
    [.play [0] (fun _ => []) [] (fun _ => Env.plain)] (by simp [LiveEvent.Fits, LiveEvent.commands])
  exact C85_more_inputs_abort thru ⟨2, 1, 48000, 4⟩ (by norm_num) _ _ ⟨_, List.mem_singleton_self _, by
    simp [LiveEvent.frames]⟩ r hr

theorem thru_run (sr : Nat) (es : List (ChainEvent Unit)) : ∀ (x y : Nat → Nat → ℚ) ds',
    chainRun thru sr [⟨1, 2, 2, ()⟩] es x = .ok (y, ds') → ∀ c f, c < 2 → f < ChainEvent.total es → y c f = x c f := by
  induction es with
  | nil => intro x y ds' _ c f _ hf; simp [ChainEvent.total] at hf
  | cons e es ih =>
    intro x y ds' h c f hc hf
    cases e with
    | change i r =>
      have hch : chainChange thru i r [⟨1, 2, 2, ()⟩] = .ok [⟨1, 2, 2, ()⟩] := by
        rw [chainChange, List.mapM_cons, List.mapM_nil]
        split_ifs <;> rfl
      rw [chainRun, ok_bind hch] at h
      exact ih x y ds' h c f hc (by simpa [ChainEvent.total, ChainEvent.frames] using hf)
    | block t n =>
      rw [chainRun] at h
      obtain ⟨r, h1, h2⟩ := bind_ok h
      injection h1 with h1
      subst h1
      obtain ⟨q, h3, h4⟩ := bind_ok h2
      injection h4 with h4
      injection h4 with h4 h5
      subst h4
      simp only [followed]
      split_ifs with hfn
      · simp [clip, window, hc, hfn]
      · have ht : ChainEvent.total (.block t n :: es) = n + ChainEvent.total es := by
          simp [ChainEvent.total, ChainEvent.frames]
        rw [ih _ _ _ h3 c (f - n) hc (by omega), later]
        congr 1
        omega

/-- A sample is captured and two frames are played through a node that puts out what it is given, for examples. -/
def demo : List (LiveEvent ℚ Unit Unit) :=
  [.captured [5], .play [0, 0, 0, 0] (fun _ => [])
    (((chainProgram true [⟨1, 2, 2, ()⟩]).map ApiCall.command).map fun x => (x, .plain)) fun _ => Env.plain]

theorem demo_plays : ∀ i e, (demo.filter LiveEvent.plays)[i]? = some e → e.commands.map Prod.fst =
    (if i = 0 then (chainProgram true [(⟨1, 2, 2, ()⟩ : Dsp Unit)]).map ApiCall.command else []) ++
      ([] : List (Id × Unit)).map fun x => (ApiCall.change ⟨x.1, 0⟩ x.2).command := by
  intro i e he
  have hf : demo.filter LiveEvent.plays = [demo[1]] := rfl
  rw [hf] at he
  cases i with
  | zero =>
    injection he with he
    subst he
    simp [demo, LiveEvent.commands, Function.comp_def]
  | succ i => cases he

/-- One input and two outputs at a thousand frames a second: the hypotheses of the theorems above are met, and what is
played is known: the sample that was captured is heard after one frame of silence. -/
example : ∃ h, session thru ⟨1, 2, 1000, 2⟩ (new 1000 2 16) demo = .ok (h, [[0, 0, 5, 0]]) := by
  have hfit : ∀ e ∈ demo, e.Fits ⟨1, 2, 1000, 2⟩ := by
    intro e he
    simp only [demo, List.mem_cons, List.not_mem_nil, or_false] at he
    rcases he with rfl | rfl <;> simp [LiveEvent.Fits]
  have htime : KeepsTime ⟨1, 2, 1000, 2⟩ demo := by
    intro before e after h
    rcases before with _ | ⟨b1, _ | ⟨b2, before⟩⟩
    · injection h with h h'
      subst h
      simp [playedIn, capturedIn, LiveEvent.frames, LiveEvent.captures, millisecond]
    · injection h with h h'
      injection h' with h' h''
      subst h h'
      simp [playedIn, capturedIn, LiveEvent.frames, LiveEvent.captures, millisecond]
    · have := congrArg List.length h
      simp [demo] at this
  obtain ⟨⟨h, played⟩, hr⟩ := C85_callbacks_partial thru ⟨1, 2, 1000, 2⟩ 16 2 (by norm_num) (by norm_num) (by norm_num)
    (by norm_num) (by norm_num [millisecond]) _ _
    (healthy_of_total 16 1000 (fun s b => ⟨_, rfl⟩) (fun s r => ⟨_, rfl⟩)) true [⟨1, 2, 2, ()⟩] (by simp)
    (fun _ _ => trivial) (by simp) (by simp) (by simp) (fun _ => []) (by simp) demo hfit demo_plays htime
  refine ⟨h, ?_⟩
  obtain ⟨ks, es, y, ds', h1, h2, h3, h4⟩ := C85_plays thru ⟨1, 2, 1000, 2⟩ 16 2 (by norm_num) (by norm_num)
    (by norm_num) true [⟨1, 2, 2, ()⟩] (by simp) (fun _ => []) demo hfit demo_plays h played hr
  have hp : playedIn ⟨1, 2, 1000, 2⟩ demo = 2 := by simp [playedIn, demo, LiveEvent.frames]
  have hc : capturedIn ⟨1, 2, 1000, 2⟩ demo = [5] := by simp [capturedIn, demo, LiveEvent.captures]
  rw [hp, hc] at h3
  rw [hp] at h4
  have ht := history_total h2
  rw [playedIn_eq h1, hp] at ht
  have hy := thru_run 1000 es _ y ds' h3
  have hi : interleaved 2 2 (fun c f => if c < 2 then y c f else 0) =
      interleaved 2 2 fun c f => if c = 0 ∧ f = 1 then (5 : ℚ) else 0 := by
    apply Wav.interleaved_congr
    intro c f hc hf
    rw [if_pos hc, hy c f hc (by omega), if_pos ⟨rfl, hc, hf⟩]
    interval_cases c <;> interval_cases f <;> norm_num [delayedInput, millisecond]
  rw [hi] at h4
  obtain ⟨ks', x', l1, l2, l3, l4, l5⟩ := C85_calls thru ⟨1, 2, 1000, 2⟩ 16 2 (by norm_num) (by norm_num)
    (by norm_num) demo (api_of_plays demo_plays) hfit h played hr
  have hlen : played.length = 1 := by
    have := congrArg List.length l1.frames
    rw [List.length_map, List.length_map] at this
    rw [l4, this]
    rfl
  rw [hr]
  rcases played with _ | ⟨p, _ | ⟨p', ps⟩⟩
  · cases hlen
  · rw [List.flatten_cons, List.flatten_nil, List.append_nil] at h4
    rw [h4]
    rfl
  · simp at hlen

/-- Nothing is captured and two frames are to be played: the hypotheses of `C85_late_input_aborts` are met. -/
example (r) : session thru ⟨1, 2, 1000, 2⟩ (new 1000 2 16) [.play [0, 0, 0, 0] (fun _ => []) [] fun _ => Env.plain] ≠
    .ok r :=
  C85_late_input_aborts thru ⟨1, 2, 1000, 2⟩ 16 2 (by norm_num) (by norm_num) (by norm_num) _
    (by simp [LiveEvent.commands]) (by simp [LiveEvent.Fits])
    (by simp [playedIn, capturedIn, LiveEvent.frames, LiveEvent.captures, millisecond]) r

/-- Three frames are to be played, but two are announced: the hypotheses of `C85_long_block_aborts` are met. -/
example (r) : session thru ⟨1, 2, 1000, 2⟩ (new 1000 2 16)
    ([.captured [5, 6, 7]] ++ [.play [0, 0, 0, 0, 0, 0] (fun _ => []) [] fun _ => Env.plain]) ≠ .ok r :=
  C85_long_block_aborts thru ⟨1, 2, 1000, 2⟩ 16 2 (by norm_num) (by norm_num) (by norm_num) _
    (by simp [LiveEvent.commands]) (by simp [LiveEvent.Fits]) _ (by simp [LiveEvent.frames]) r

/-- The sample that the queue has no room for: the hypotheses of `C85_unplayed_input_waits` are met. -/
example (h) (hs : session thru ⟨1, 2, 1000, 2⟩ (new 1000 2 16) [] = .ok h) :
    session thru ⟨1, 2, 1000, 2⟩ (new 1000 2 16) ([] ++ [.captured (List.replicate (1024 * 1024) 0)]) =
      .error .block :=
  C85_unplayed_input_waits thru ⟨1, 2, 1000, 2⟩ 16 2 (by norm_num) (by norm_num) (by norm_num) [] (by simp) (by simp) h hs
    _ (by intro h; have := congrArg List.length h; rw [List.length_replicate] at this; simp at this)
    (by rw [List.length_replicate]; simp [playedIn, capturedIn, millisecond])

/-- At 44100 frames a second the input is 45 frames late. -/
example : inputDelay 2 44100 = 90 := by rw [C85_delay _ _ (by norm_num)]; rfl

end LiveHost
end Rawdio
