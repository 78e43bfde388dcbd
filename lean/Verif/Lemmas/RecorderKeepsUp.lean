import Verif.Lemmas.Progress
import Verif.Lemmas.RecorderNode
import Verif.Props.Recorder
import Verif.Lemmas.Unbounded
import Verif.Lemmas.EventLoop

/-! Helper lemmas: recorders in an engine that are attended to. -/

namespace Rawdio

open Chain

variable {S P Q C D : Type}

/-! ## Nodes of one kind -/

/-- What a node of the kind can do, it can do among others. -/
theorem Embeds.chainRun_ok [Zero S] {a : NodeOps S P C} {b : NodeOps S Q D} {f : P → Q} {own : D → Option C}
    (E : Embeds a b f own) {sr : Nat} (es : List (ChainEvent D)) :
    ∀ {d : Dsp P} {x y : Nat → Nat → S} {d' : Dsp P}, (∀ r, .change d.id r ∈ es → (own r).isSome) →
    Rawdio.chainRun a sr [d] (es.filterMap (ChainEvent.seen d.id own)) x = .ok (y, [d']) →
    Rawdio.chainRun b sr [d.within f] es x = .ok (y, [d'.within f]) := by
  induction es with
  | nil => intro d x y d' _ h; cases h; rfl
  | cons e es ih =>
    intro d x y d' ho h
    have ho' : ∀ r, .change d.id r ∈ es → (own r).isSome := fun r hr => ho r (List.mem_cons_of_mem _ hr)
    cases e with
    | change i r =>
      by_cases hd : d.id = i
      · subst hd
        obtain ⟨c, hc⟩ := Option.isSome_iff_exists.mp (ho r List.mem_cons_self)
        rw [List.filterMap_cons_some (b := .change d.id c) (by simp [ChainEvent.seen, hc])] at h
        have h1 := chainRun_change h
        rw [if_pos rfl] at h1
        obtain ⟨s, h2, h3⟩ := h1
        rw [chainRun_change_of (i := d.id) (s := f s) (show (d.within f).id = d.id from rfl)]
        · exact ih (d := { d with state := s }) ho' h3
        · rw [show (d.within f).state = f d.state from rfl, E.change, hc]
          simp only [h2]
          rfl
      · rw [List.filterMap_cons_none (by simp [ChainEvent.seen, Ne.symm hd])] at h
        have := (Network.Turns.other (ops := b) (c := r) (d := d.within f) hd).2 sr es x
        rw [List.map_singleton, List.singleton_append] at this
        rw [this]
        exact ih ho' h
    | block t n =>
      rw [List.filterMap_cons_some (f := ChainEvent.seen d.id own) (b := ChainEvent.block t n) rfl] at h
      obtain ⟨u, ds', v, h1, h2, rfl⟩ := chainRun_block h
      obtain ⟨z, s, h3, rfl, rfl⟩ := chainBlock_single h1
      refine chainRun_block_of (chainBlock_of (d := d.within f) (z := z) (s := f s) ?_) (ih (d := { d with state := s }) ho' h2)
      rw [show (d.within f).state = f d.state from rfl, E.run,
        show (d.within f).inputCount = d.inputCount from rfl, show (d.within f).outputCount = d.outputCount from rfl, h3]
      rfl

/-- Nodes in order can do everything they are asked. -/
theorem Healthy.chainRun [Zero S] {ops : NodeOps S P C} {mf sr : Nat} {I : Dsp P → Prop} {A : Id → C → Prop}
    (H : Healthy ops mf sr I A) (es : List (ChainEvent C)) : ∀ {d : Dsp P} (x : Nat → Nat → S), I d →
    (∀ e ∈ es, match e with | .change i c => d.id = i → A i c | .block _ n => 0 < n ∧ n ≤ mf) →
    ∃ y d', Rawdio.chainRun ops sr [d] es x = .ok (y, [d']) := by
  induction es with
  | nil => intro d x _ _; exact ⟨_, d, rfl⟩
  | cons e es ih =>
    intro d x hd he
    have h0 := he e List.mem_cons_self
    cases e with
    | change i c =>
      by_cases hi : d.id = i
      · subst hi
        obtain ⟨s, h1, h2⟩ := H.change d c hd (h0 rfl)
        obtain ⟨y, d', h3⟩ := ih (d := { d with state := s }) x h2 (fun e h => he e (List.mem_cons_of_mem _ h))
        exact ⟨y, d', (chainRun_change_of rfl h1).trans h3⟩
      · have := (Network.Turns.other (ops := ops) (c := c) (d := d) hi).2 sr es x
        rw [List.map_singleton, List.singleton_append] at this
        rw [this]
        exact ih x hd (fun e h => he e (List.mem_cons_of_mem _ h))
    | block t n =>
      obtain ⟨y, s, h1⟩ := H.run d n t x hd h0.1 h0.2
      have h2 := H.keeps d n t x y s hd h0.1 h0.2 h1
      obtain ⟨v, d', h3⟩ := ih (d := { d with state := s }) (later n x) h2 (fun e h => he e (List.mem_cons_of_mem _ h))
      exact ⟨_, d', chainRun_block_of (chainBlock_of h1) h3⟩

namespace WithRecorders

theorem embeds_other [Zero S] (others : NodeOps S P C) : Embeds others (ops others) other Request.other? where
  run s b := by
    simp only [ops]
    cases others.run s b <;> rfl
  change s r := by
    cases r with
    | other c =>
      simp only [ops, Request.other?]
      cases others.change s c <;> rfl
    | recorder r => rfl

end WithRecorders

/-! ## More steps -/

namespace RecorderProcessor

theorem copyLoop_mono (input : Grid S) (a n ch : Nat) : ∀ (fuel position : Nat) (p r : RecorderProcessor S),
    copyLoop input a n ch fuel position p = .ok r → ∀ more, copyLoop input a n ch (fuel + more) position p = .ok r := by
  intro fuel
  induction fuel with
  | zero =>
    intro position p r h more
    unfold copyLoop at h
    split at h
    · cases h
    · rename_i hp
      cases h
      cases more with
      | zero => unfold copyLoop; rw [if_neg hp]
      | succ m => rw [Nat.zero_add]; unfold copyLoop; rw [if_neg hp]
  | succ fuel ih =>
    intro position p r h more
    rw [Nat.add_right_comm]
    unfold copyLoop at h ⊢
    split at h
    · rename_i hp
      rw [if_pos hp]
      split at h
      · cases h
      · rename_i hq
        rw [if_neg hq]
        dsimp only at h ⊢
        obtain ⟨c, h1, h2⟩ := bind_ok h
        obtain ⟨q, h3, h4⟩ := bind_ok h2
        exact (ok_bind h1).trans ((ok_bind h3).trans (ih _ _ _ h4 more))
    · rename_i hp
      rw [if_neg hp]
      exact h

theorem process_mono (input : Grid S) : EventProcessor.FuelMono (σ := RecorderProcessor S) fun fuel => process fuel input := by
  intro f p a n r h more
  dsimp only at h ⊢
  unfold process at h ⊢
  split
  · rename_i hr
    rw [if_pos hr] at h
    exact copyLoop_mono _ _ _ _ _ _ _ _ h more
  · rename_i hr
    rw [if_neg hr] at h
    exact h

theorem processAudio_mono [Zero S] {fuel : Nat} {p r : RecorderProcessor S} {input : Grid S} {t : Int}
    (h : p.processAudio fuel input t = .ok r) (more : Nat) : p.processAudio (fuel + more) input t = .ok r := by
  unfold processAudio at h ⊢
  dsimp only at h ⊢
  obtain ⟨q, h1, h2⟩ := bind_ok h
  exact (ok_bind (EventProcessor.loop_mono (process_mono input) processEvent _ _ _ _ _ _ _ _ _ h1 more)).trans h2

end RecorderProcessor

namespace RecorderNode

theorem step_mono [Zero S] {fuel : Nat} {r : Recorder S} {a : RecorderAction S} {q : Recorder S × Option (Grid S)}
    (h : r.step fuel a = .ok q) (more : Nat) : r.step (fuel + more) a = .ok q := by
  cases a with
  | block input t =>
    unfold Recorder.step at h ⊢
    dsimp only at h ⊢
    cases hp : r.processor.processAudio fuel input t with
    | error e => rw [hp] at h; cases h
    | ok p => rw [RecorderProcessor.processAudio_mono hp more]; rw [hp] at h; exact h
  | _ => exact h

theorem step_fuel [Zero S] {fuel : Nat} {r : Recorder S} (a : RecorderRequest) :
    r.step fuel (a.action : RecorderAction S) = r.step 0 a.action := by
  cases a <;> rfl

/-- A recorder among other nodes does what it does on its own. -/
theorem run_of [Zero S] {sr ch fuel : Nat} (others : NodeOps S P C) (i : Id)
    (es : List (ChainEvent (WithRecorders.Request C))) :
    ∀ {s : RecorderNode S} {r' : Recorder S} {out : List (Grid S)} {x : Nat → Nat → S}, s.channelCount = ch →
    (∀ c, .change i (.other c) ∉ es) →
    s.recorder.run fuel (recorderActions ch (es.filterMap (ChainEvent.seen i WithRecorders.Request.recorder?)) x) =
      .ok (r', out) →
    ∃ q, chainRun (WithRecorders.ops others) sr [⟨i, ch, 0, .recorder s⟩] es x = .ok q := by
  induction es with
  | nil => intro s r' out x _ _ _; exact ⟨_, rfl⟩
  | cons e es ih =>
    intro s r' out x hc ho h
    have ho' : ∀ c, .change i (.other c) ∉ es := fun c h => ho c (List.mem_cons_of_mem _ h)
    cases e with
    | change j c =>
      by_cases hj : j = i
      · subst hj
        cases c with
        | other c => exact absurd List.mem_cons_self (ho c)
        | recorder r =>
          rw [List.filterMap_cons_some (f := ChainEvent.seen j WithRecorders.Request.recorder?) (b := .change j r)
            (by simp [ChainEvent.seen, WithRecorders.Request.recorder?])] at h
          unfold recorderActions Recorder.run at h
          obtain ⟨q, h1, h2⟩ := bind_ok h
          obtain ⟨q2, h3, h4⟩ := bind_ok h2
          rw [step_fuel] at h1
          obtain ⟨w, hw⟩ := ih (s := { s with recorder := q.1, taken := s.taken ++ q.2.toList }) hc ho' h3
          refine ⟨w, ?_⟩
          rw [chainRun_change_of (s := .recorder { s with recorder := q.1, taken := s.taken ++ q.2.toList }) rfl]
          · exact hw
          · simp only [WithRecorders.ops, RecorderNode.ops, bind, Except.bind, h1]
            rfl
      · rw [List.filterMap_cons_none (by simp [ChainEvent.seen, hj])] at h
        have := (Network.Turns.other (ops := WithRecorders.ops others) (c := c)
          (d := ⟨i, ch, 0, .recorder s⟩) (Ne.symm hj)).2 sr es x
        rw [List.map_singleton, List.singleton_append] at this
        rw [this]
        exact ih hc ho' h
    | block t n =>
      rw [List.filterMap_cons_some (f := ChainEvent.seen i WithRecorders.Request.recorder?)
        (b := ChainEvent.block t n) rfl] at h
      unfold recorderActions Recorder.run at h
      obtain ⟨q, h1, h2⟩ := bind_ok h
      obtain ⟨q2, h3, h4⟩ := bind_ok h2
      obtain ⟨w, hw⟩ := ih (s := { s with recorder := q.1 }) hc ho' h3
      have hu : unbounded (fun fuel => s.recorder.step fuel
          (.block ⟨s.channelCount, n, fun c f => (window ch n x c f).getD 0⟩ t)) = .ok q := by
        refine unbounded_of (f := fuel) (fun f y hy g => by rw [Nat.add_comm]; exact step_mono hy g) ?_
        rw [window_getD, hc]
        exact h1
      refine ⟨_, chainRun_block_of (chainBlock_of (d := ⟨i, ch, 0, WithRecorders.recorder (P := P) s⟩)
        (z := fun c f => (window 0 n silence c f).getD 0) (s := WithRecorders.recorder { s with recorder := q.1 }) ?_) hw⟩
      simp only [WithRecorders.ops, RecorderNode.ops, bind, Except.bind]
      rw [hu]
      rfl

/-! ## Rounds -/

theorem actions_append [Zero S] (ch : Nat) (as bs : List (ChainEvent RecorderRequest)) : ∀ x : Nat → Nat → S,
    recorderActions ch (as ++ bs) x = recorderActions ch as x ++ recorderActions ch bs (later (ChainEvent.total as) x) := by
  induction as with
  | nil =>
    intro x
    have : later 0 x = x := by funext c f; simp [later]
    simp [recorderActions, ChainEvent.total, this]
  | cons a as ih =>
    intro x
    cases a with
    | change i r => simp [recorderActions, ih, RecorderSchedule.total_change]
    | block t n =>
      simp only [List.cons_append, recorderActions, ih, RecorderSchedule.total_block]
      have : later (ChainEvent.total as) (later n x) = later (n + ChainEvent.total as) x := by
        funext c f
        simp [later, Nat.add_assoc]
      rw [this]

/-- What happens to a recorder that is attended to. -/
theorem history_rounds [Zero S] {mf sr ch : Nat} (hsr : 0 < sr) (hm : 0 < mf) (hlen : mf * sr < 2 ^ 33) {i : Id}
    {changes : Nat → List (Id × WithRecorders.Request C)} {ks : List (Call S (WithRecorders S P) (WithRecorders.Request C))}
    {es : List (ChainEvent (WithRecorders.Request C))} (h : ChainHistory mf sr changes ks es)
    (x : Nat → Nat → S) : RecorderAttended changes i ks → (∀ k ∈ ks, 0 < k.output.frameCount ∧ k.output.frameCount ≤ mf ∧
      k.output.frameCount ≤ 4096) →
    ∃ rounds : List (Recorder.Round S), (∀ y ∈ rounds, y.requests.length ≤ 8 ∧ (∀ a ∈ y.requests, a.IsRequest) ∧
        RecorderAction.Ok sr ch (.block y.input y.start) ∧ y.input.frames ≤ 4096) ∧
      (ks = [] → rounds = []) ∧
      recorderActions ch (es.filterMap (ChainEvent.seen i WithRecorders.Request.recorder?)) x ++
        (if ks = [] then [] else [.notifications]) = rounds.flatMap Recorder.Round.actions := by
  have hlt : sr < 2 ^ 33 := lt_of_le_of_lt (Nat.le_mul_of_pos_left sr hm) hlen
  induction h with
  | nil => intro _ _; exact ⟨[], by simp, fun _ => rfl, rfl⟩
  | @snoc ks es k bs h hb ih =>
    intro ha hk
    obtain ⟨rounds, r1, r2, r3⟩ := ih (fun m hm => ha m (by simp; omega)) (fun l hl => hk l (by simp [hl]))
    obtain ⟨k1, k2, k3⟩ := hk k (by simp)
    obtain ⟨now, tiles, h1, h2, rfl⟩ := hb
    obtain rfl := Gain.nearest_unique hsr hlt h1
    have htiles : tiles = [(0, k.output.frameCount)] := by
      cases tiles with
      | nil => exact absurd (show 0 = k.output.frameCount from h2) (by omega)
      | cons a tiles =>
        obtain ⟨o, n⟩ := a
        obtain ⟨rfl, a1, a2, a3, a4⟩ := h2
        have hn : n = k.output.frameCount := by
          have := Processor.tiles_le _ _ _ a4
          omega
        subst hn
        cases tiles with
        | nil => rfl
        | cons b tiles =>
          obtain ⟨o, n⟩ := b
          obtain ⟨rfl, b1, b2, b3, b4⟩ := a4
          have := Processor.tiles_le _ _ _ b4
          omega
    subst htiles
    obtain ⟨rs, q1, q2, q3⟩ := ha ks.length (by simp)
    have hseen : ((changes ks.length).map fun x => (.change x.1 x.2 : ChainEvent (WithRecorders.Request C))).filterMap
        (ChainEvent.seen i WithRecorders.Request.recorder?) =
        ((changes ks.length).filterMap fun y => if y.1 = i then y.2.recorder? else none).map fun r => .change i r := by
      rw [List.filterMap_map, List.map_filterMap]
      congr 1
      funext y
      simp only [Function.comp, ChainEvent.seen]
      split <;> simp_all
    have hact : ∀ (l : List RecorderRequest) (x : Nat → Nat → S),
        recorderActions ch (l.map fun r => .change i r) x = l.map RecorderRequest.action := by
      intro l
      induction l with
      | nil => intro x; rfl
      | cons r l ih => intro x; simp [recorderActions, ih]
    have hT0 : ∀ l : List RecorderRequest, ChainEvent.total (l.map fun r => (.change i r : ChainEvent RecorderRequest)) = 0 := by
      intro l
      simp [ChainEvent.total, ChainEvent.frames, Function.comp_def]
    refine ⟨rounds ++ [⟨rs.map RecorderRequest.action, ⟨ch, k.output.frameCount, clip ch k.output.frameCount
      (later (framesIn ks) x)⟩, Timestamp.incrementedBySamples (Timestamp.fromSamples (framesIn ks : ℚ) sr) 0 sr⟩], ?_, by simp, ?_⟩
    · intro y hy
      rw [List.mem_append, List.mem_singleton] at hy
      rcases hy with hy | rfl
      · exact r1 y hy
      · refine ⟨by simpa using q2, ?_, ⟨?_, k1, ?_, le_refl _⟩, k3⟩
        · intro a ha'
          obtain ⟨r, hr, rfl⟩ := List.mem_map.mp ha'
          have := q3 r hr
          cases r <;> first | trivial | exact absurd rfl this
        · have e1 : ∀ f : Nat, 0 ≤ Timestamp.fromSamples (f : ℚ) sr := fun f => Timestamp.fromSamples_nonneg ..
          have := e1 (framesIn ks)
          have := e1 0
          show 0 ≤ Timestamp.fromSamples _ sr + Timestamp.fromSamples ((0 : Nat) : ℚ) sr
          omega
        · exact (Nat.mul_le_mul_right sr k2).trans hlen.le
    · rw [if_neg (by simp), List.filterMap_append, List.filterMap_append, List.flatMap_append, ← r3, hseen, q1,
        actions_append, actions_append, hact]
      have hz : recorderActions ch ((List.map (fun b => (ChainEvent.block b.1 b.2 : ChainEvent (WithRecorders.Request C)))
            (List.map (fun b => (Timestamp.incrementedBySamples (Timestamp.fromSamples (framesIn ks : ℚ) sr) b.1 sr, b.2))
              [(0, k.output.frameCount)])).filterMap (ChainEvent.seen i WithRecorders.Request.recorder?))
          (later (framesIn ks) x) = [.block ⟨ch, k.output.frameCount, clip ch k.output.frameCount
      (later (framesIn ks) x)⟩ (Timestamp.incrementedBySamples (Timestamp.fromSamples (framesIn ks : ℚ) sr) 0 sr)] := rfl
      have ht : ChainEvent.total (es.filterMap (ChainEvent.seen i WithRecorders.Request.recorder?) ++
          (List.map (fun r => (.change i r : ChainEvent RecorderRequest))
            ((if ks.length = 0 then [] else [.notifications]) ++ rs))) = framesIn ks := by
        rw [total_append, hT0, total_seen, Chain.history_total h]
        rfl
      rw [ht, hz]
      by_cases h0 : ks = []
      · simp [h0, Recorder.Round.actions]
      · simp [h0, Recorder.Round.actions, RecorderRequest.action]

/-- A recorder that is attended to can do what it is asked. -/
theorem keeps_up [Zero S] {mf sr ch : Nat} (hsr : 0 < sr) (h32 : sr ≤ 2 ^ 32) (hm : 0 < mf) (hlen : mf * sr < 2 ^ 33)
    (others : NodeOps S P C) (i : Id) (first : Nat)
    {changes : Nat → List (Id × WithRecorders.Request C)} {ks : List (Call S (WithRecorders S P) (WithRecorders.Request C))}
    {es : List (ChainEvent (WithRecorders.Request C))} (h : ChainHistory mf sr changes ks es) (x : Nat → Nat → S)
    (ha : RecorderAttended changes i ks) (ho : ∀ m c, (i, .other c) ∉ changes m)
    (hk : ∀ k ∈ ks, 0 < k.output.frameCount ∧ k.output.frameCount ≤ mf ∧ k.output.frameCount ≤ 4096) :
    ∃ q, chainRun (WithRecorders.ops others) sr [⟨i, ch, 0, .recorder ⟨ch, Recorder.new sr ch first, []⟩⟩] es x = .ok q := by
  obtain ⟨rounds, r1, _, r3⟩ := history_rounds (ch := ch) hsr hm hlen h x ha hk
  obtain ⟨r, out, hr⟩ := Recorder.C43_keeps_up (first := first) hsr h32 (le_refl 4096) rounds r1
  rw [← r3] at hr
  obtain ⟨r1, o1, _, h1, _⟩ := Recorder.run_append _ _ hr
  refine run_of (fuel := 4096) others i es rfl ?_ h1
  intro c hc
  obtain ⟨j, hj⟩ := Sampler.history_events hm h _ hc
  exact ho j c hj

end RecorderNode
end Rawdio
