import Verif.Lemmas.MixedHistory
import Verif.Lemmas.NetworkRun
import Verif.Lemmas.RecorderSchedule
import Verif.Lemmas.RecorderStall

/-! Helper lemmas: recorders in an engine. -/

namespace Rawdio

open Processor Network

/-! ## Sessions -/

section sessions

variable {S P C : Type}

/-- The final states of the nodes of a network, and their signals. -/
theorem Network.states [AddZeroClass S] (ops : NodeOps S P C) (mf mc sr : Nat) (hm : 0 < mf)
    (program : Nat → List (ApiCall P C)) (hP : Program program)
    (hp : Plain (made (program 0)) (links (program 0)) (input (program 0))) (waiting ks : List (Call S P C))
    (hk : ∀ k ∈ waiting ++ ks, k.Valid) (hd : Delivered program waiting ks) (E : Processor S P)
    (hE : calls ops (new sr mc mf) (waiting ++ ks) = .ok E) :
    ∃ es sig, ChainHistory mf sr (fun i => requests (program i)) ks es ∧
      (∀ d ∈ made (program 0), ∃ e, (0 < ks.length → E.graph.graph.getNode d.id = some e) ∧
        chainRun ops sr [d] es (arriving (links (program 0)) (input (program 0)) (sessionInput true mc ks) sig d.id) =
          .ok (sig d.id, [e])) ∧
      ∀ i k E1 o E2, (waiting ++ ks)[i]? = some k → calls ops (new sr mc mf) ((waiting ++ ks).take i) = .ok E1 →
        E1.process ops k.env k.commands k.input k.output = .ok (o, E2) →
        ∀ c f, c < k.output.channelCount → f < k.output.frameCount →
          o.sample? c f = some (if i < waiting.length then 0
            else heard (output (program 0)) mc sig c (framesIn (ks.take (i - waiting.length)) + f)) := by
  obtain ⟨E0, h1, h2⟩ := (calls_append _ _ _ _).mp hE
  obtain ⟨V0, v1, v2, v3, v4, v5⟩ := session_waiting hm waiting E0 (fun k h => hk k (by simp [h]))
    (fun c hc he => hd.notStarted (he ▸ hc)) h1
  obtain ⟨rest', hpart⟩ := hd.part
  obtain ⟨before, rest, hbr, hbe, hre⟩ := List.append_eq_map_iff.mp hpart
  rw [← hbe] at v3
  obtain ⟨V, es, Y, y1, _, y3, _, y5, y6⟩ := session_network hm hP hp hbr v2 v1 v3 ks E (fun k h => hk k (by simp [h]))
    (by
      intro i k hik
      by_cases h0 : i = 0
      · subst h0
        have := hd.first k hik
        rw [hbr, List.map_append, ← hbe] at this
        simpa using List.append_cancel_left this
      · simp only [if_neg h0]
        exact hd.later i k (by omega) hik) h2
  refine ⟨es, Y, y3, ?_, ?_⟩
  · intro d hd'
    obtain ⟨e, e1, e2, _⟩ := y5 d hd'
    refine ⟨e, ?_, e2⟩
    intro hl
    rw [if_neg (by omega)] at e1
    rw [y1.node, e1]
  · intro i k E1 o E2 hik h3 h4 c f hc hf
    by_cases hi : i < waiting.length
    · rw [if_pos hi]
      rw [List.getElem?_append_left hi] at hik
      rw [List.take_append_of_le_length hi.le] at h3
      exact v5 i k E1 o E2 hik h3 h4 c f hc hf
    · rw [if_neg hi]
      rw [List.getElem?_append_right (by omega)] at hik
      rw [List.take_append, List.take_of_length_le (by omega)] at h3
      obtain ⟨E0', g1, g2⟩ := (calls_append _ _ _ _).mp h3
      obtain rfl : E0 = E0' := by rw [h1] at g1; injection g1
      rw [y6 _ k E1 o E2 hik g2 h4 c f hc hf]
      unfold heardFrom heard
      cases ho : output (program 0) with
      | none => simp
      | some n => simp [output_held _ hP.builds hP.typed n ho]

theorem history_blocks {mf sr : Nat} (hsr : 0 < sr) (hlt : sr < 2 ^ 33) {changes : Nat → List (Id × C)}
    {ks : List (Call S P C)} {es : List (ChainEvent C)} (h : ChainHistory mf sr changes ks es) :
    ∀ t n, .block t n ∈ es → 0 ≤ t ∧ 0 < n ∧ n ≤ mf := by
  have tiles_mem : ∀ (full : Nat) (tiles : List (Nat × Nat)) (a b : Nat), Tiles full a b tiles →
      ∀ x ∈ tiles, 0 < x.2 ∧ x.2 ≤ full := by
    intro full tiles
    induction tiles with
    | nil => intro a b _ x hx; cases hx
    | cons y ys ih =>
      intro a b ht x hx
      obtain ⟨_, h2, h3, _, h5⟩ := ht
      rcases List.mem_cons.mp hx with rfl | hx
      · exact ⟨h2, h3⟩
      · exact ih _ _ h5 x hx
  induction h with
  | nil => intro t n h; cases h
  | @snoc ks es k bs h hb ih =>
    intro t n hx
    rw [List.mem_append, List.mem_append] at hx
    rcases hx with (hx | hx) | hx
    · exact ih t n hx
    · obtain ⟨y, _, hy⟩ := List.mem_map.mp hx
      cases hy
    · obtain ⟨y, hy, he⟩ := List.mem_map.mp hx
      cases he
      obtain ⟨now, tiles, h1, h2, rfl⟩ := hb
      obtain rfl := Gain.nearest_unique hsr hlt h1
      obtain ⟨z, hz, rfl⟩ := List.mem_map.mp hy
      refine ⟨?_, tiles_mem _ _ _ _ h2 z hz⟩
      have : ∀ f : Nat, 0 ≤ Timestamp.fromSamples (f : ℚ) sr := fun f => Timestamp.fromSamples_nonneg ..
      have h3 := this (framesIn ks)
      have h4 := this z.1
      show 0 ≤ Timestamp.fromSamples _ sr + Timestamp.fromSamples (z.1 : ℚ) sr
      omega

/-- What happens up to a process call. -/
theorem history_split {mf sr : Nat} {changes : Nat → List (Id × C)} {ks : List (Call S P C)} {es : List (ChainEvent C)}
    (h : ChainHistory mf sr changes ks es) (m : Nat) (hm : m < ks.length) :
    ∃ es1 es2, es = es1 ++ (changes m).map (fun x => .change x.1 x.2) ++ es2 ∧
      ChainEvent.total es1 = framesIn (ks.take m) := by
  induction h with
  | nil => simp at hm
  | @snoc ks es k bs h hb ih =>
    by_cases hl : m < ks.length
    · obtain ⟨es1, es2, rfl, h2⟩ := ih hl
      refine ⟨es1, _, by simp only [List.append_assoc]; rfl, ?_⟩
      rw [List.take_append_of_le_length hl.le]
      exact h2
    · rw [List.length_append, List.length_singleton] at hm
      obtain rfl : m = ks.length := by omega
      refine ⟨es, _, rfl, ?_⟩
      rw [List.take_left' rfl]
      exact Chain.history_total h

/-- The blocks of a session are at their times. -/
theorem history_paced {D : Type} {mf sr : Nat} (hsr : 0 < sr) (hlt : sr < 2 ^ 33) {changes : Nat → List (Id × C)}
    {ks : List (Call S P C)} {es : List (ChainEvent C)} (h : ChainHistory mf sr changes ks es) (i : Id)
    (own : C → Option D) : AdsrSchedule.Paced sr 0 (es.filterMap (ChainEvent.seen i own)) := by
  induction h with
  | nil => trivial
  | @snoc ks es k bs h hb ih =>
    rw [List.filterMap_append, List.filterMap_append]
    refine AdsrSchedule.paced_append _ _ 0 (AdsrSchedule.paced_append _ _ 0 ih (AdsrSchedule.paced_changes ..)) ?_
    obtain ⟨now, tiles, h1, h2, rfl⟩ := hb
    obtain rfl := Gain.nearest_unique hsr hlt h1
    have := AdsrSchedule.paced_call (Sampler.fromSamples_near (framesIn ks) sr) i own tiles 0 _ h2
    have e : ChainEvent.total (es.filterMap (ChainEvent.seen i own) ++
        ((changes ks.length).map fun x => (.change x.1 x.2 : ChainEvent C)).filterMap (ChainEvent.seen i own)) =
          framesIn ks := by
      rw [← List.filterMap_append, total_seen]
      rw [← Chain.history_total h]
      simp [ChainEvent.total, ChainEvent.frames, Function.comp_def]
    rw [e, Nat.zero_add]
    exact this

end sessions

namespace RecorderSchedule

variable {S P C : Type}

theorem sentFrom_append (as bs : List (ChainEvent RecorderRequest)) : ∀ F,
    sentFrom F (as ++ bs) = sentFrom F as ++ sentFrom (F + ChainEvent.total as) bs := by
  induction as with
  | nil => intro F; simp [sentFrom, ChainEvent.total]
  | cons a as ih =>
    intro F
    cases a with
    | change i c => simp [sentFrom, ih, total_change]
    | block t n => simp [sentFrom, ih, total_block, Nat.add_assoc]

theorem sentFrom_changes (i : Id) (F : Nat) (cs : List (Id × WithRecorders.Request C)) :
    sentFrom F ((cs.map fun x => (.change x.1 x.2 : ChainEvent (WithRecorders.Request C))).filterMap
      (ChainEvent.seen i WithRecorders.Request.recorder?)) = cs.filterMap fun x =>
        if x.1 = i then (x.2.recorder?.bind RecorderRequest.asks).map fun q => (F, q) else none := by
  induction cs with
  | nil => rfl
  | cons c cs ih =>
    rw [List.map_cons]
    by_cases hc : c.1 = i
    · cases ho : c.2.recorder? with
      | none =>
        rw [List.filterMap_cons_none (by simp [ChainEvent.seen, ho]), List.filterMap_cons_none (by simp [ho]), ih]
      | some r =>
        rw [List.filterMap_cons_some (f := ChainEvent.seen i WithRecorders.Request.recorder?) (b := .change i r)
            (by simp [ChainEvent.seen, hc, ho]), sentFrom, ih]
        cases hr : r.asks with
        | none => rw [List.filterMap_cons_none (by simp [ho, hr])]; rfl
        | some q =>
          rw [List.filterMap_cons_some (f := fun x : Id × WithRecorders.Request C =>
            if x.1 = i then (x.2.recorder?.bind RecorderRequest.asks).map fun q => (F, q) else none) (b := (F, q))
            (by simp [hc, ho, hr])]
          rfl
    · rw [List.filterMap_cons_none (by simp [ChainEvent.seen, hc]), List.filterMap_cons_none (by simp [hc]), ih]

theorem sentFrom_blocks (bs : List (Int × Nat)) : ∀ F,
    sentFrom F (bs.map fun b => (.block b.1 b.2 : ChainEvent RecorderRequest)) = [] := by
  induction bs with
  | nil => intro F; rfl
  | cons b bs ih => intro F; exact ih _

theorem sent_history {mf sr : Nat} {changes : Nat → List (Id × WithRecorders.Request C)}
    {ks : List (Call S P (WithRecorders.Request C))} {es : List (ChainEvent (WithRecorders.Request C))}
    (h : ChainHistory mf sr changes ks es) (i : Id) :
    sentFrom 0 (es.filterMap (ChainEvent.seen i WithRecorders.Request.recorder?)) = WithRecorders.sent changes i ks := by
  induction h with
  | nil => rfl
  | @snoc ks es k bs h hb ih =>
    rw [List.filterMap_append, List.filterMap_append, filterMap_blocks, sentFrom_append, sentFrom_append,
      sentFrom_blocks, List.append_nil, sentFrom_changes, ih, total_seen, Chain.history_total h, Nat.zero_add,
      WithRecorders.sent, WithRecorders.sent, List.length_append, List.length_singleton, List.range_succ,
      List.flatMap_append]
    congr 1
    · rw [List.flatMap_def, List.flatMap_def]
      congr 1
      apply List.map_congr_left
      intro j hj
      rw [List.mem_range] at hj
      rw [List.take_append_of_le_length (by omega)]
    · simp

end RecorderSchedule

/-! ## The node -/

namespace RecorderNode

variable {S P C : Type} [Zero S] {sr ch : Nat}

/-- A recorder that has done what it should. -/
structure Keeps (sr ch : Nat) (s : RecorderNode S) (q : Recorded S) : Prop where
  count : s.channelCount = ch
  tracks : s.recorder.Tracks sr ch (s.taken.flatMap Grid.allFrames) q
  idle : s.recorder.processor.Idle

theorem Keeps.got {s : RecorderNode S} {q : Recorded S} (h : s.Keeps sr ch q) :
    s.got = s.taken.flatMap Grid.allFrames ++ s.recorder.frames ch := by
  have hr := h.tracks.recordingOk
  unfold RecorderNode.got Recorder.frames
  cases hc : s.recorder.currentRecording with
  | none => rfl
  | some g => simp [Grid.allFrames, hr g hc]

theorem Keeps.frames {s : RecorderNode S} {q : Recorded S} (h : s.Keeps sr ch q) :
    q.frames = s.got ++ s.recorder.processor.stream ch := by
  rw [h.got]
  exact h.tracks.frames

theorem keeps_new (sr ch first : Nat) :
    (⟨ch, Recorder.new sr ch first, []⟩ : RecorderNode S).Keeps sr ch Recorded.none :=
  ⟨rfl, Recorder.new_tracks sr ch first, fun _ => rfl⟩

theorem step_grows {fuel : Nat} {r r' : Recorder S} {o : Option (Grid S)} {taken : List (List S)} {q : Recorded S}
    (ht : r.Tracks sr ch taken q) (a : RecorderAction S) (h : r.step fuel a = .ok (r', o)) :
    (r.frames ch).length ≤ (o.toList.flatMap Grid.allFrames).length + (r'.frames ch).length := by
  have hsame : r'.currentRecording = r.currentRecording →
      (r.frames ch).length ≤ (o.toList.flatMap Grid.allFrames).length + (r'.frames ch).length := by
    intro h
    simp [Recorder.frames, h]
  have hsend : ∀ t k, (r.send t k).map (·, (none : Option (Grid S))) = .ok (r', o) →
      r'.currentRecording = r.currentRecording := by
    intro t k h
    cases hs : r.send t k with
    | error e => rw [hs] at h; cases h
    | ok r1 =>
      rw [hs] at h
      injection h with h
      injection h with h _
      subst h
      obtain ⟨-, rfl⟩ := Recorder.send_ok hs
      rfl
  cases a with
  | recordNow => exact hsame (hsend _ _ h)
  | stopNow => exact hsame (hsend _ _ h)
  | stopAt t => exact hsame (hsend _ _ h)
  | takeRecording =>
    cases h
    unfold Recorder.frames
    cases hc : r.currentRecording with
    | none => simp
    | some g => simp [Grid.allFrames, ht.recordingOk g hc]
  | numbersDrawn n => cases h; exact hsame rfl
  | notifications =>
    unfold Recorder.step at h
    cases hs : r.processNotifications with
    | error e => rw [hs] at h; cases h
    | ok r1 =>
      rw [hs] at h
      injection h with h
      injection h with h h'
      subst h h'
      unfold Recorder.processNotifications at hs
      obtain ⟨_, _, _, hf, _, _⟩ := Recorder.receive_spec _ _ _ ht.shape.notifications
        (show Recorder.QueueOk ch { r with processor := { r.processor with notifications := [] } } from
          ⟨ht.queue.sorted, ht.queue.channel, ht.queue.later, ht.queue.bound, ht.queue.ok⟩)
        (show Recorder.RecordingOk ch { r with processor := { r.processor with notifications := [] } } from
          ht.recordingOk) hs
      rw [hf, List.length_append]
      have : (Recorder.frames ch { r with processor := { r.processor with notifications := [] } }) = r.frames ch := rfl
      rw [this]
      omega
  | block input t =>
    unfold Recorder.step at h
    dsimp only at h
    cases hs : r.processor.processAudio fuel input t with
    | error e => rw [hs] at h; cases h
    | ok p =>
      rw [hs] at h
      cases h
      exact hsame rfl

theorem step_keeps (hsr : 0 < sr) {fuel : Nat} {s : RecorderNode S} {q : Recorded S} (h : s.Keeps sr ch q)
    (a : RecorderAction S) (ha : a.Ok sr ch) {r : Recorder S} {o : Option (Grid S)}
    (hs : s.recorder.step fuel a = .ok (r, o)) :
    ({ s with recorder := r, taken := s.taken ++ o.toList } : RecorderNode S).Keeps sr ch (q.step sr ch a) ∧
      s.got.length ≤ ({ s with recorder := r, taken := s.taken ++ o.toList } : RecorderNode S).got.length := by
  have hk : ({ s with recorder := r, taken := s.taken ++ o.toList } : RecorderNode S).Keeps sr ch (q.step sr ch a) := by
    refine ⟨h.count, ?_, Recorder.step_idle h.idle hs⟩
    have := Recorder.step_tracks hsr h.tracks a ha hs
    rw [List.flatMap_append]
    exact this
  refine ⟨hk, ?_⟩
  rw [h.got, hk.got]
  have := step_grows h.tracks a hs
  simp only [List.flatMap_append, List.length_append]
  omega

theorem window_getD (ch n : Nat) (x : Nat → Nat → S) :
    (fun c f => (window ch n x c f).getD 0) = clip ch n x := by
  funext c f
  unfold window clip
  split <;> rfl

/-- What a recorder does in a session. -/
theorem run_keeps (hsr : 0 < sr) (others : NodeOps S P C) (i : Id)
    (es : List (ChainEvent (WithRecorders.Request C))) :
    ∀ {s : RecorderNode S} {q : Recorded S} {x y : Nat → Nat → S} {L : List (Dsp (WithRecorders S P))},
    s.Keeps sr ch q → (∀ t n, .block t n ∈ es → 0 ≤ t ∧ 0 < n ∧ n * sr ≤ 2 ^ 33) →
    chainRun (WithRecorders.ops others) sr [⟨i, ch, 0, .recorder s⟩] es x = .ok (y, L) →
    ∃ s', L = [⟨i, ch, 0, .recorder s'⟩] ∧ s'.Keeps sr ch (q.run sr ch
      (recorderActions ch (es.filterMap (ChainEvent.seen i WithRecorders.Request.recorder?)) x)) ∧
      s.got.length ≤ s'.got.length ∧ y = silence := by
  induction es with
  | nil =>
    intro s q x y L hs _ h
    cases h
    exact ⟨s, rfl, hs, le_refl _, rfl⟩
  | cons e es ih =>
    intro s q x y L hs hb h
    have hb' : ∀ t n, .block t n ∈ es → 0 ≤ t ∧ 0 < n ∧ n * sr ≤ 2 ^ 33 :=
      fun t n h => hb t n (List.mem_cons_of_mem _ h)
    cases e with
    | change j c =>
      have hc := chainRun_change h
      by_cases hj : i = j
      · rw [if_pos hj] at hc
        obtain ⟨s1, h1, h2⟩ := hc
        cases c with
        | other c => cases h1
        | recorder r =>
          simp only [WithRecorders.ops, RecorderNode.ops, bind, Except.bind] at h1
          cases hr : s.recorder.step 0 (r.action : RecorderAction S) with
          | error e => rw [hr] at h1; cases h1
          | ok v =>
            rw [hr] at h1
            cases h1
            obtain ⟨k1, k2⟩ := step_keeps hsr hs r.action (by cases r <;> trivial) (r := v.1) (o := v.2) hr
            obtain ⟨s', g1, g2, g3, g4⟩ := ih k1 hb' h2
            refine ⟨s', g1, ?_, k2.trans g3, g4⟩
            rw [List.filterMap_cons_some (f := ChainEvent.seen i WithRecorders.Request.recorder?) (b := .change i r)
              (by simp [ChainEvent.seen, hj, WithRecorders.Request.recorder?])]
            exact g2
      · rw [if_neg hj] at hc
        obtain ⟨s', g1, g2, g3, g4⟩ := ih hs hb' hc
        refine ⟨s', g1, ?_, g3, g4⟩
        rw [List.filterMap_cons_none (by simp [ChainEvent.seen, Ne.symm hj])]
        exact g2
    | block t n =>
      obtain ⟨u, ds', v, h1, h2, rfl⟩ := chainRun_block h
      obtain ⟨z, s1, h3, rfl, rfl⟩ := chainBlock_single h1
      simp only [WithRecorders.ops, RecorderNode.ops, bind, Except.bind] at h3
      cases hr : unbounded (fun fuel => s.recorder.step fuel
          (.block ⟨s.channelCount, n, fun c f => (window ch n x c f).getD 0⟩ t)) with
      | error e => rw [hr] at h3; cases h3
      | ok w =>
        rw [hr] at h3
        cases h3
        obtain ⟨fuel, hf⟩ := unbounded_ok hr
        rw [window_getD, hs.count] at hf
        obtain ⟨b1, b2, b3⟩ := hb t n List.mem_cons_self
        obtain ⟨k1, k2⟩ := step_keeps hsr hs (.block ⟨ch, n, clip ch n x⟩ t) ⟨b1, b2, b3, le_refl _⟩ (r := w.1) (o := w.2) hf
        have ho : w.2 = none := by
          unfold Recorder.step at hf
          dsimp only at hf
          cases hp : s.recorder.processor.processAudio fuel ⟨ch, n, clip ch n x⟩ t with
          | error e => rw [hp] at hf; cases hf
          | ok p => rw [hp] at hf; cases hf; rfl
        rw [ho] at k1 k2
        simp only [Option.toList_none, List.append_nil] at k1 k2
        obtain ⟨s', g1, g2, g3, g4⟩ := ih k1 hb' h2
        refine ⟨s', g1, ?_, k2.trans g3, ?_⟩
        · rw [List.filterMap_cons_some (f := ChainEvent.seen i WithRecorders.Request.recorder?)
            (b := ChainEvent.block t n) rfl]
          exact g2
        · rw [g4]
          funext c f
          simp [followed, clip, silence]

/-- After the notifications have been processed. -/
theorem notified {fuel : Nat} {s : RecorderNode S} {q : Recorded S} {r : Recorder S} {o : Option (Grid S)}
    (h : s.recorder.step fuel .notifications = .ok (r, o))
    (hk : ({ s with recorder := r, taken := s.taken ++ o.toList } : RecorderNode S).Keeps sr ch q) :
    q.frames.length < ({ s with recorder := r, taken := s.taken ++ o.toList } : RecorderNode S).got.length + 4096 ∧
      (q.recording = false →
        q.frames.length ≤ ({ s with recorder := r, taken := s.taken ++ o.toList } : RecorderNode S).got.length) := by
  obtain ⟨hn, -, -, -⟩ := Recorder.notifications_step h
  have hstream : r.processor.stream ch = r.processor.current.framesIn ch 0 r.processor.position := by
    unfold RecorderProcessor.stream
    rw [hn]
    rfl
  have hp := hk.tracks.shape.position
  rw [hk.frames, List.length_append]
  simp only [hstream, Grid.framesIn, List.length_map, List.length_range']
  simp only [recorderBufferSize] at hp
  refine ⟨by omega, ?_⟩
  intro hq
  have : r.processor.position = 0 := hk.idle (hk.tracks.recording.trans hq)
  omega

end RecorderNode
end Rawdio

namespace Rawdio
namespace RecorderNode

variable {S P C : Type} [Zero S] {sr ch : Nat}

theorem run_split {ops : NodeOps S P C} {d : Dsp P} {es fs : List (ChainEvent C)} {x y : Nat → Nat → S}
    {L : List (Dsp P)} (h : chainRun ops sr [d] (es ++ fs) x = .ok (y, L)) :
    ∃ u ds v, chainRun ops sr [d] es x = .ok (u, ds) ∧
      chainRun ops sr ds fs (later (ChainEvent.total es) x) = .ok (v, L) := by
  rw [Chain.chainRun_append] at h
  simp only [bind, Except.bind] at h
  cases h1 : chainRun ops sr [d] es x with
  | error e => rw [h1] at h; cases h
  | ok q =>
    rw [h1] at h
    dsimp only at h
    cases h2 : chainRun ops sr q.2 fs (later (ChainEvent.total es) x) with
    | error e => rw [h2] at h; cases h
    | ok r =>
      rw [h2] at h
      cases h
      exact ⟨q.1, q.2, r.1, rfl, h2⟩

theorem total_changes (cs : List (Id × C)) :
    ChainEvent.total (cs.map fun x => (.change x.1 x.2 : ChainEvent C)) = 0 := by
  simp [ChainEvent.total, ChainEvent.frames, Function.comp_def]

theorem total_append (es fs : List (ChainEvent C)) :
    ChainEvent.total (es ++ fs) = ChainEvent.total es + ChainEvent.total fs := by
  simp [ChainEvent.total]

/-- What has been got does not change without notifications. -/
theorem run_still (others : NodeOps S P C) (i : Id) (es : List (ChainEvent (WithRecorders.Request C))) :
    ∀ {s s' : RecorderNode S} {x y : Nat → Nat → S} {L : List (Dsp (WithRecorders S P))},
    .change i (.recorder .notifications) ∉ es →
    chainRun (WithRecorders.ops others) sr [⟨i, ch, 0, .recorder s⟩] es x = .ok (y, L) →
    L = [⟨i, ch, 0, .recorder s'⟩] → s'.got = s.got := by
  induction es with
  | nil =>
    intro s s' x y L _ h hL
    cases h
    cases hL
    rfl
  | cons e es ih =>
    intro s s' x y L hn h hL
    rw [List.mem_cons, not_or] at hn
    cases e with
    | change j c =>
      have hc := chainRun_change h
      by_cases hj : i = j
      · subst hj
        rw [if_pos rfl] at hc
        obtain ⟨s1, h1, h2⟩ := hc
        cases c with
        | other c => cases h1
        | recorder r =>
          simp only [WithRecorders.ops, RecorderNode.ops, bind, Except.bind] at h1
          cases hr : s.recorder.step 0 (r.action : RecorderAction S) with
          | error e => rw [hr] at h1; cases h1
          | ok v =>
            rw [hr] at h1
            cases h1
            rw [ih hn.2 h2 hL]
            have hsend : ∀ t k, (s.recorder.send t k).map (·, (none : Option (Grid S))) = .ok v →
                ({ s with recorder := v.1, taken := s.taken ++ v.2.toList } : RecorderNode S).got = s.got := by
              intro t k h
              cases hs : s.recorder.send t k with
              | error e => rw [hs] at h; cases h
              | ok r1 =>
                rw [hs] at h
                injection h with h
                subst h
                obtain ⟨-, rfl⟩ := Recorder.send_ok hs
                simp [RecorderNode.got]
            cases r with
            | recordNow => exact hsend _ _ hr
            | stopNow => exact hsend _ _ hr
            | stopAt t => exact hsend _ _ hr
            | takeRecording =>
              cases hr
              unfold RecorderNode.got
              cases s.recorder.currentRecording <;> simp
            | notifications => exact absurd rfl hn.1
            | numbersDrawn n => cases hr; simp [RecorderNode.got]
      · rw [if_neg hj] at hc
        exact ih hn.2 hc hL
    | block t n =>
      obtain ⟨u, ds', v, h1, h2, rfl⟩ := chainRun_block h
      obtain ⟨z, s1, h3, rfl, rfl⟩ := chainBlock_single h1
      simp only [WithRecorders.ops, RecorderNode.ops, bind, Except.bind] at h3
      cases hr : unbounded (fun fuel => s.recorder.step fuel
          (.block ⟨s.channelCount, n, fun c f => (window ch n x c f).getD 0⟩ t)) with
      | error e => rw [hr] at h3; cases h3
      | ok w =>
        rw [hr] at h3
        cases h3
        rw [ih hn.2 h2 hL]
        obtain ⟨fuel, hf⟩ := unbounded_ok hr
        unfold Recorder.step at hf
        dsimp only at hf
        cases hp : s.recorder.processor.processAudio fuel ⟨s.channelCount, n, fun c f => (window ch n x c f).getD 0⟩ t with
        | error e => rw [hp] at hf; cases hf
        | ok p => rw [hp] at hf; cases hf; rfl

/-- A recorder in a session. -/
theorem session (hsr : 0 < sr) {mf : Nat} (hm : 0 < mf) (hlen : mf * sr < 2 ^ 33) (others : NodeOps S P C) (i : Id)
    (first : Nat) {changes : Nat → List (Id × WithRecorders.Request C)} {ks : List (Call S (WithRecorders S P) (WithRecorders.Request C))}
    {es : List (ChainEvent (WithRecorders.Request C))} (h : ChainHistory mf sr changes ks es) (x y : Nat → Nat → S)
    {L : List (Dsp (WithRecorders S P))}
    (hr : chainRun (WithRecorders.ops others) sr [⟨i, ch, 0, .recorder ⟨ch, Recorder.new sr ch first, []⟩⟩] es x = .ok (y, L)) :
    ∃ schedule s, RecordScheduled sr (WithRecorders.sent changes i ks) schedule ∧
      L = [⟨i, ch, 0, .recorder s⟩] ∧ y = silence ∧
      (∃ rest, recordedFrames schedule ch (framesIn ks) x = s.got ++ rest) ∧
      ∀ m < ks.length,
        ((i, .recorder .notifications) ∈ changes m →
          (recordedFrames schedule ch (framesIn (ks.take m)) x).length < s.got.length + 4096 ∧
          ((∀ F, F + 1 = framesIn (ks.take m) → isRecorded schedule F = false) →
            (recordedFrames schedule ch (framesIn (ks.take m)) x).length ≤ s.got.length)) ∧
        ((∀ l, m < l → l < ks.length → (i, .recorder .notifications) ∉ changes l) →
          s.got.length ≤ (recordedFrames schedule ch (framesIn (ks.take m)) x).length) := by
  have hlt : sr < 2 ^ 33 := lt_of_le_of_lt (Nat.le_mul_of_pos_left _ hm) hlen
  have hb : ∀ t n, .block t n ∈ es → 0 ≤ t ∧ 0 < n ∧ n * sr ≤ 2 ^ 33 := by
    intro t n ht
    obtain ⟨h1, h2, h3⟩ := history_blocks hsr hlt h t n ht
    exact ⟨h1, h2, (Nat.mul_le_mul_right sr h3).trans hlen.le⟩
  obtain ⟨schedule, c1, _, c3⟩ := RecorderSchedule.scheduled (S := S) hsr ch
    (es.filterMap (ChainEvent.seen i WithRecorders.Request.recorder?)) 0 [] Recorded.none x
    (history_paced hsr hlt h i _) rfl List.Pairwise.nil (by simp)
  rw [List.nil_append, RecorderSchedule.sent_history h] at c1
  have hfol : ∀ es1 es2, es = es1 ++ es2 →
      ((Recorded.none : Recorded S).run sr ch (recorderActions ch
        (es1.filterMap (ChainEvent.seen i WithRecorders.Request.recorder?)) x)).frames =
          recordedFrames schedule ch (ChainEvent.total es1) x ∧
      ((∀ F, F + 1 = ChainEvent.total es1 → isRecorded schedule F = false) →
        ((Recorded.none : Recorded S).run sr ch (recorderActions ch
          (es1.filterMap (ChainEvent.seen i WithRecorders.Request.recorder?)) x)).recording = false) := by
    intro es1 es2 he
    obtain ⟨f1, f2⟩ := c3 _ (es2.filterMap (ChainEvent.seen i WithRecorders.Request.recorder?))
      (by rw [← List.filterMap_append, ← he])
    rw [total_seen] at f1 f2
    constructor
    · rw [f2]
      simp only [Recorded.none, List.nil_append, Nat.zero_add]
      rfl
    · intro hF
      rw [f1]
      split
      · rfl
      · rename_i h0
        rw [Nat.zero_add]
        exact hF _ (by omega)
  obtain ⟨s, g1, g2, _, g4⟩ := run_keeps hsr others i es (keeps_new sr ch first) hb hr
  refine ⟨schedule, s, c1, g1, g4, ⟨s.recorder.processor.stream ch, ?_⟩, ?_⟩
  · rw [← g2.frames, (hfol es [] (by simp)).1, Chain.history_total h]
  · intro m hm
    constructor
    · intro hn
      obtain ⟨es1, es2, rfl, h2⟩ := history_split h m hm
      obtain ⟨as, bs, hab⟩ := List.append_of_mem hn
      rw [hab, List.map_append, List.map_cons] at hr hb hfol
      simp only [← List.append_assoc] at hr hb hfol
      rw [List.append_assoc] at hr hb
      have hf := hfol (es1 ++ as.map fun x => .change x.1 x.2) _ (by rw [List.append_assoc])
      rw [total_append, total_changes, Nat.add_zero, h2] at hf
      obtain ⟨u, ds, v, r1, r2⟩ := run_split hr
      obtain ⟨s1, k1, k2, _, _⟩ := run_keeps hsr others i _ (keeps_new sr ch first)
        (fun t n h => hb t n (List.mem_append_left _ h)) r1
      rw [k1, List.cons_append] at r2
      have hc := chainRun_change r2
      rw [if_pos rfl] at hc
      obtain ⟨s2, q1, q2⟩ := hc
      simp only [WithRecorders.ops, RecorderNode.ops, bind, Except.bind] at q1
      cases hst : s1.recorder.step 0 (RecorderRequest.notifications.action : RecorderAction S) with
      | error e => rw [hst] at q1; cases q1
      | ok w =>
        rw [hst] at q1
        cases q1
        obtain ⟨k3, _⟩ := step_keeps hsr k2 .notifications trivial (r := w.1) (o := w.2) hst
        obtain ⟨n1, n2⟩ := notified (r := w.1) (o := w.2) hst k3
        obtain ⟨s3, j1, _, j3, _⟩ := run_keeps hsr others i _ k3
          (fun t n h => hb t n (List.mem_append_right _ (List.mem_cons_of_mem _ h))) q2
        rw [g1] at j1
        cases j1
        change (Recorded.run sr ch Recorded.none _).frames.length < _ at n1
        change (Recorded.run sr ch Recorded.none _).recording = false →
          (Recorded.run sr ch Recorded.none _).frames.length ≤ _ at n2
        rw [hf.1] at n1 n2
        refine ⟨lt_of_lt_of_le n1 (by omega), ?_⟩
        intro hF
        exact (n2 (hf.2 hF)).trans j3
    · intro hn
      obtain ⟨es1, es2, he, h2, h3⟩ : ∃ es1 es2, es = es1 ++ es2 ∧ ChainEvent.total es1 = framesIn (ks.take m) ∧
          .change i (.recorder .notifications) ∉ es2 := by
        clear hr hb hfol g2 g1 c3 c1 g4
        induction h with
        | nil => simp at hm
        | @snoc ks es k bs h hbo ih =>
          rw [List.length_append, List.length_singleton] at hm hn
          have hbs : .change i (.recorder .notifications) ∉
              bs.map (fun b => (.block b.1 b.2 : ChainEvent (WithRecorders.Request C))) := by
            intro hx
            obtain ⟨z, _, hz'⟩ := List.mem_map.mp hx
            cases hz'
          by_cases hl : m < ks.length
          · obtain ⟨es1, es2, rfl, e2, e3⟩ := ih hl (fun q h1 h2 => hn q h1 (by omega))
            refine ⟨es1, es2 ++ (changes ks.length).map (fun x => .change x.1 x.2) ++
              bs.map (fun b => .block b.1 b.2), by simp, ?_, ?_⟩
            · rw [e2, List.take_append_of_le_length (by omega)]
            · intro hx
              rw [List.mem_append, List.mem_append] at hx
              rcases hx with (hx | hx) | hx
              · exact e3 hx
              · obtain ⟨z, hz, hz'⟩ := List.mem_map.mp hx
                obtain ⟨z1, z2⟩ := z
                cases hz'
                exact hn ks.length (by omega) (by omega) hz
              · exact hbs hx
          · obtain rfl : m = ks.length := by omega
            refine ⟨es ++ (changes ks.length).map (fun x => .change x.1 x.2), bs.map (fun b => .block b.1 b.2),
              rfl, ?_, hbs⟩
            rw [total_append, total_changes, Nat.add_zero, Chain.history_total h, List.take_left' rfl]
      subst he
      obtain ⟨u, ds, v, r1, r2⟩ := run_split hr
      obtain ⟨s1, k1, k2, _, _⟩ := run_keeps hsr others i _ (keeps_new sr ch first)
        (fun t n h => hb t n (List.mem_append_left _ h)) r1
      rw [k1] at r2
      rw [run_still others i es2 h3 r2 g1]
      have := (hfol es1 es2 rfl).1
      rw [← h2, ← this, k2.frames, List.length_append]
      omega

end RecorderNode
end Rawdio
