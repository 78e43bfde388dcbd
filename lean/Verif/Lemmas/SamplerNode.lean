import Verif.Spec.SamplerNode
import Verif.Lemmas.SamplerLate
import Verif.Lemmas.Unbounded
import Verif.Lemmas.Chain
import Verif.Lemmas.Healthy
import Verif.Lemmas.GainTime

/-! Helper lemmas: a sampler in an engine. -/

namespace Rawdio

namespace Sampler

variable {S : Type}

section stream

variable [Zero S] [Add S] [Mul S] [One S]

theorem ops_run {s : Sampler S} {b : NodeBlock S} {f : Nat} {t : Sampler S} {g : Grid S}
    (h : s.processAudio f ⟨s.buffer.channels, b.frames, fun c f => (b.output c f).getD 0⟩ b.time = .ok (t, g)) :
    ops.run s b = .ok (g.val, t) := by
  simp only [ops]
  rw [unbounded_of (fun f x hx g => by rw [Nat.add_comm]; exact processAudio_mono hx g) h]
  rfl

theorem ops_ran {s t : Sampler S} {b : NodeBlock S} {y : Nat → Nat → S} (h : ops.run s b = .ok (y, t)) :
    ∃ f g, s.processAudio f ⟨s.buffer.channels, b.frames, fun c f => (b.output c f).getD 0⟩ b.time = .ok (t, g) ∧
      g.val = y := by
  simp only [ops] at h
  cases hu : unbounded fun fuel => s.processAudio fuel
      ⟨s.buffer.channels, b.frames, fun c f => (b.output c f).getD 0⟩ b.time with
  | error e => rw [hu] at h; cases h
  | ok r =>
    rw [hu] at h
    cases h
    obtain ⟨f, hf⟩ := unbounded_ok hu
    exact ⟨f, _, hf, rfl⟩

omit [Add S] [Mul S] [One S] in
theorem silent_window (n m : Nat) : (fun c f => (window n m (silence : Nat → Nat → S) c f).getD 0) = silence := by
  funext c f
  simp only [window, silence]
  split <;> rfl

/-- The states of a sampler node that it renders from: a good one, after which some events with proper loops have been
sent. -/
def Sound (sr : Nat) (d : Dsp (Sampler S)) : Prop :=
  ∃ (s : Sampler S) (es : List SamplerEvent), s.Good ∧ (∀ e ∈ es, ProperLoop e) ∧ d.state = s.sendAll es ∧ s.sampleRate = sr ∧
    s.buffer.channels = d.outputCount

omit [Zero S] [Add S] [Mul S] [One S] in
theorem sendAll_snoc (s : Sampler S) (es : List SamplerEvent) (e : SamplerEvent) :
    (s.sendAll es).send e = s.sendAll (es ++ [e]) := by
  simp [sendAll, List.foldl_append]

omit [Zero S] [Add S] [Mul S] [One S] in
theorem sendAll_buffer (s : Sampler S) (es : List SamplerEvent) : (s.sendAll es).buffer = s.buffer := by
  rw [sendAll_eq]

theorem sound_block {s : Sampler S} (hs : s.Good) {es : List SamplerEvent} (he : ∀ e ∈ es, ProperLoop e) {n : Nat}
    (hn : 0 < n) (hlen : n * s.sampleRate ≤ 2 ^ 33) (t : Int) (x : Nat → Nat → Option S) :
    ∃ f u g, (s.sendAll es).processAudio f ⟨s.buffer.channels, n, silence⟩ t = .ok (u, g) ∧ u.Good ∧ SameFixed s u ∧
      ops.run (s.sendAll es) ⟨n, s.sampleRate, t, x, window s.buffer.channels n silence⟩ = .ok (g.val, u) := by
  obtain ⟨f, u, g, h1, h2, h3⟩ := good_block hs ⟨es, t, ⟨s.buffer.channels, n, silence⟩⟩ hn hlen he
  refine ⟨f, u, g, h1, h2, h3, ops_run (f := f) ?_⟩
  simp only
  rw [silent_window, sendAll_buffer]
  exact h1

/-- A sampler node renders all blocks, as long as no loop is improper. -/
theorem sampler_healthy (mf sr : Nat) (hlen : mf * sr ≤ 2 ^ 33) :
    Healthy (ops : NodeOps S (Sampler S) SamplerEvent) mf sr (Sound sr) (fun _ => ProperLoop) where
  run := by
    rintro d n t x ⟨s, es, h1, h2, h3, h4, h5⟩ hn hm
    obtain ⟨f, u, g, _, _, _, g4⟩ := sound_block h1 h2 hn
      (by rw [h4]; exact le_trans (Nat.mul_le_mul_right _ hm) hlen) t (window d.inputCount n x)
    rw [h4, h5] at g4
    rw [h3]
    exact ⟨_, _, g4⟩
  keeps := by
    rintro d n t x y u ⟨s, es, h1, h2, h3, h4, h5⟩ hn hm h
    obtain ⟨f, u, g, _, g2, g3, g4⟩ := sound_block h1 h2 hn
      (by rw [h4]; exact le_trans (Nat.mul_le_mul_right _ hm) hlen) t (window d.inputCount n x)
    rw [h4, h5] at g4
    rw [h3, g4] at h
    cases h
    exact ⟨u, [], g2, by simp, rfl, g3.sampleRate.trans h4, by rw [g3.buffer]; exact h5⟩
  change := by
    rintro d e ⟨s, es, h1, h2, h3, h4, h5⟩ he
    refine ⟨_, rfl, s, es ++ [e], h1, ?_, ?_, h4, h5⟩
    · intro x hx
      rw [List.mem_append, List.mem_singleton] at hx
      rcases hx with hx | rfl
      · exact h2 x hx
      · exact he
    · rw [h3]; exact sendAll_snoc ..

/-- What happens to a row that is one sampler. -/
theorem chain_run {mf sr : Nat} (hlen : mf * sr ≤ 2 ^ 33) (id : Id) (es : List (ChainEvent SamplerEvent)) :
    ∀ {s : Sampler S} {acc : List SamplerEvent} {x y : Nat → Nat → S} {ds : List (Dsp (Sampler S))}, s.Good →
    s.sampleRate = sr → (∀ e ∈ acc, ProperLoop e) →
    (∀ e ∈ es, match e with | .change i c => i = id ∧ ProperLoop c | .block _ n => 0 < n ∧ n ≤ mf) →
    chainRun ops sr [⟨id, 0, s.buffer.channels, s.sendAll acc⟩] es x = .ok (y, ds) →
    ∃ f t outs, run f s (blocks s.buffer.channels acc es) = .ok (t, outs) ∧
      ∀ c F, F < ChainEvent.total es → y c F =
        if c < s.buffer.channels then joined (blocks s.buffer.channels acc es) outs c F else 0 := by
  induction es with
  | nil =>
    intro s acc x y ds _ _ _ _ _
    exact ⟨0, s, [], rfl, fun c F hF => by simp [ChainEvent.total] at hF⟩
  | cons e es ih =>
    intro s acc x y ds hs hsr hacc hes h
    cases e with
    | change i c =>
      obtain ⟨rfl, hc⟩ := hes _ List.mem_cons_self
      have hch : chainChange ops i c [⟨i, 0, s.buffer.channels, s.sendAll acc⟩] =
          .ok [⟨i, 0, s.buffer.channels, s.sendAll (acc ++ [c])⟩] := by
        rw [← sendAll_snoc]
        simp [chainChange, ops]
      rw [chainRun, hch] at h
      obtain ⟨f, t, outs, h1, h2⟩ := ih hs hsr (acc := acc ++ [c]) (by
        intro x hx
        rw [List.mem_append, List.mem_singleton] at hx
        rcases hx with hx | rfl
        · exact hacc x hx
        · exact hc) (fun e he => hes e (List.mem_cons_of_mem _ he)) h
      refine ⟨f, t, outs, h1, fun c F hF => h2 c F ?_⟩
      simpa [ChainEvent.total, ChainEvent.frames] using hF
    | block t n =>
      have hn := hes _ List.mem_cons_self
      simp only at hn
      obtain ⟨f, u, g, g1, g2, g3, g4⟩ := sound_block hs hacc hn.1
        (by rw [hsr]; exact le_trans (Nat.mul_le_mul_right _ hn.2) hlen) t (window 0 n x)
      rw [hsr] at g4
      have hb : chainBlock ops sr t n [⟨id, 0, s.buffer.channels, s.sendAll acc⟩] x =
          .ok (clip s.buffer.channels n g.val, [⟨id, 0, s.buffer.channels, u⟩]) := by
        simp only [chainBlock, bind]
        rw [g4]
        rfl
      rw [chainRun, hb] at h
      simp only [bind, Except.bind] at h
      cases hr : chainRun ops sr [⟨id, 0, s.buffer.channels, u⟩] es (later n x) with
      | error e => rw [hr] at h; cases h
      | ok q =>
        rw [hr] at h
        cases h
        rw [← g3.buffer] at hr
        obtain ⟨f', t', outs, h1, h2⟩ := ih (acc := []) g2 (g3.sampleRate.trans hsr) (by simp)
          (fun e he => hes e (List.mem_cons_of_mem _ he)) hr
        rw [g3.buffer] at h1 h2
        refine ⟨f + f', t', g :: outs, ?_, ?_⟩
        · rw [blocks, run]
          simp only [bind]
          rw [processAudio_mono g1 f']
          simp only [Except.bind]
          rw [Nat.add_comm f f', run_mono _ h1 f]
        · intro c F hF
          have ht : ChainEvent.total (.block t n :: es) = n + ChainEvent.total es := by
            simp [ChainEvent.total, ChainEvent.frames]
          rw [ht] at hF
          simp only [blocks, joined, followed]
          by_cases hFn : F < n
          · rw [if_pos hFn, if_pos hFn, clip]
            by_cases hc : c < s.buffer.channels
            · rw [if_pos ⟨hc, hFn⟩, if_pos hc]
            · rw [if_neg (fun h => hc h.1), if_neg hc]
          · rw [if_neg hFn, if_neg hFn, h2 c (F - n) (by omega)]

end stream

/-! ## The blocks of a session -/

section blocks

variable [Zero S]

/-- The events that have been sent after the last block. -/
def unread : List SamplerEvent → List (ChainEvent SamplerEvent) → List SamplerEvent
  | acc, [] => acc
  | acc, .change _ e :: es => unread (acc ++ [e]) es
  | _, .block _ _ :: es => unread [] es

theorem blocks_append (ch : Nat) (es fs : List (ChainEvent SamplerEvent)) : ∀ acc,
    (blocks ch acc (es ++ fs) : List (SamplerBlock S)) = blocks ch acc es ++ blocks ch (unread acc es) fs := by
  induction es with
  | nil => intro acc; rfl
  | cons e es ih => intro acc; cases e <;> simp [blocks, unread, ih]

omit [Zero S] in
theorem unread_append (es fs : List (ChainEvent SamplerEvent)) : ∀ acc,
    unread acc (es ++ fs) = unread (unread acc es) fs := by
  induction es with
  | nil => intro acc; rfl
  | cons e es ih => intro acc; cases e <;> simp [unread, ih]

/-- The blocks of a call, the first with the events sent. -/
theorem blocks_call (ch : Nat) (bs : List (Int × Nat)) : ∀ acc,
    (blocks ch acc (bs.map fun b => .block b.1 b.2) : List (SamplerBlock S)) = (match bs with
      | [] => []
      | b :: bs => ⟨acc, b.1, ⟨ch, b.2, silence⟩⟩ :: bs.map fun b => ⟨[], b.1, ⟨ch, b.2, silence⟩⟩) ∧
    unread acc (bs.map fun b => .block b.1 b.2) = if bs = [] then acc else [] := by
  induction bs with
  | nil => intro acc; exact ⟨rfl, rfl⟩
  | cons b bs ih =>
    intro acc
    obtain ⟨i1, i2⟩ := ih []
    simp only [List.map_cons, blocks, unread, i1, i2]
    refine ⟨?_, by simp⟩
    cases bs <;> rfl

theorem onTime_append (sr : Nat) (as bs : List (SamplerBlock S)) : ∀ F, OnTime sr F as →
    OnTime sr (F + (as.map fun b => b.out.frames).sum) bs → OnTime sr F (as ++ bs) := by
  induction as with
  | nil => intro F _ h; simpa using h
  | cons a as ih =>
    intro F h1 h2
    refine ⟨h1.1, ih _ h1.2 ?_⟩
    simpa [Nat.add_assoc] using h2

theorem onTime_call {full sr first : Nat} {now : Int} (hnow : |(now : ℚ) - first / sr * 2 ^ 32| ≤ 1 / 2)
    (ch : Nat) (tiles : List (Nat × Nat)) : ∀ a b acc, Tiles full a b tiles →
    OnTime sr (first + a) ((blocks ch acc ((tiles.map fun b => (Timestamp.incrementedBySamples now b.1 sr, b.2)).map
      fun b => .block b.1 b.2)) : List (SamplerBlock S)) := by
  induction tiles with
  | nil => intro a b acc _; trivial
  | cons x xs ih =>
    intro a b acc h
    obtain ⟨h1, h2, h3, h4, h5⟩ := h
    subst h1
    simp only [List.map_cons, blocks]
    refine ⟨?_, ?_⟩
    · have h6 := fromSamples_near x.1 sr
      have e : Timestamp.incrementedBySamples now x.1 sr = now + Timestamp.fromSamples (x.1 : ℚ) sr := rfl
      rw [abs_le] at hnow h6 ⊢
      have e2 : ((first + x.1 : Nat) : ℚ) / sr * 2 ^ 32 = first / sr * 2 ^ 32 + x.1 / sr * 2 ^ 32 := by
        push_cast; ring
      simp only
      rw [e, e2]
      push_cast
      constructor <;> linarith [hnow.1, hnow.2, h6.1, h6.2]
    · have := ih _ _ [] h5
      rwa [← Nat.add_assoc] at this

omit [Zero S] in
theorem tiles_length {full : Nat} (hf : 0 < full) (tiles : List (Nat × Nat)) : ∀ a b, Tiles full a b tiles →
    a ≤ b ∧ tiles.length ≤ (b - a) / full + 1 ∧ ∀ x ∈ tiles, 0 < x.2 ∧ x.2 ≤ full := by
  induction tiles with
  | nil => intro a b h; obtain rfl : a = b := h; simp
  | cons x xs ih =>
    intro a b h
    obtain ⟨h1, h2, h3, h4, h5⟩ := h
    obtain ⟨i1, i2, i3⟩ := ih _ _ h5
    refine ⟨by omega, ?_, ?_⟩
    · rcases h4 with h4 | h4
      · have e : b - a = (b - (a + x.2)) + full := by omega
        rw [e, Nat.add_div_right _ hf, List.length_cons]
        omega
      · have : xs = [] := by
          cases xs with
          | nil => rfl
          | cons y ys =>
            obtain ⟨j1, j2, _, _, j5⟩ := h5
            have := (ih _ _ ⟨j1, j2, by assumption, by assumption, j5⟩).1
            have hle : a + x.2 + y.2 ≤ b := by
              have key : ∀ (ts : List (Nat × Nat)) a b, Tiles full a b ts → a ≤ b := by
                intro ts
                induction ts with
                | nil => intro a b h; obtain rfl : a = b := h; exact le_refl _
                | cons z zs ihz =>
                  intro a b h
                  obtain ⟨_, _, _, _, k5⟩ := h
                  have := ihz _ _ k5
                  omega
              exact key _ _ _ j5
            omega
        subst this
        simp
    · intro y hy
      rcases List.mem_cons.mp hy with rfl | hy
      · exact ⟨h2, h3⟩
      · exact i3 y hy

theorem blocks_out (ch : Nat) (es : List (ChainEvent SamplerEvent)) : ∀ acc,
    (∀ b ∈ (blocks ch acc es : List (SamplerBlock S)), b.out.channels = ch ∧ b.out.val = silence) ∧
    ((blocks ch acc es : List (SamplerBlock S)).map fun b => b.out.frames).sum = ChainEvent.total es := by
  induction es with
  | nil => intro acc; exact ⟨by simp [blocks], rfl⟩
  | cons e es ih =>
    intro acc
    cases e with
    | change i c =>
      obtain ⟨i1, i2⟩ := ih (acc ++ [c])
      exact ⟨i1, by rw [blocks, i2]; simp [ChainEvent.total, ChainEvent.frames]⟩
    | block t n =>
      obtain ⟨i1, i2⟩ := ih []
      refine ⟨?_, ?_⟩
      · intro b hb
        rw [blocks] at hb
        rcases List.mem_cons.mp hb with rfl | hb
        · exact ⟨rfl, rfl⟩
        · exact i1 b hb
      · rw [blocks, List.map_cons, List.sum_cons, i2]
        simp [ChainEvent.total, ChainEvent.frames]

/-- The blocks of a call: they are on time, not too long and not too many. -/
theorem call_blocks {mf sr first total : Nat} (hm : 0 < mf) (hsr : 0 < sr) (hlt : sr < 2 ^ 33) {bs : List (Int × Nat)}
    (h : BlocksOf mf sr first total bs) (ch : Nat) (acc : List SamplerEvent) :
    OnTime sr first (blocks ch acc (bs.map fun b => .block b.1 b.2) : List (SamplerBlock S)) ∧
    bs.length ≤ total / mf + 1 ∧ ∀ b ∈ bs, 0 < b.2 ∧ b.2 ≤ mf ∧ 0 ≤ b.1 := by
  obtain ⟨now, tiles, h1, h2, rfl⟩ := h
  obtain rfl := Gain.nearest_unique hsr hlt h1
  obtain ⟨_, t2, t3⟩ := tiles_length hm tiles _ _ h2
  refine ⟨?_, by simpa using t2, ?_⟩
  · exact onTime_call (fromSamples_near first sr) ch tiles 0 total acc h2
  · intro b hb
    obtain ⟨x, hx, rfl⟩ := List.mem_map.mp hb
    have p1 := Timestamp.fromSamples_nonneg first sr
    have p2 := Timestamp.fromSamples_nonneg x.1 sr
    have e : Timestamp.incrementedBySamples (Timestamp.fromSamples first sr) x.1 sr =
      Timestamp.fromSamples first sr + Timestamp.fromSamples x.1 sr := rfl
    exact ⟨(t3 x hx).1, (t3 x hx).2, by simp only; rw [e]; omega⟩

/-- The blocks of a session in which one event is sent, before call `i`. -/
structure OneSent (mf sr ch i : Nat) (e : SamplerEvent) {P C : Type} (ks : List (Call S P C))
    (es : List (ChainEvent SamplerEvent)) : Prop where
  onTime : OnTime sr 0 (blocks ch [] es : List (SamplerBlock S))
  some : ∀ b ∈ (blocks ch [] es : List (SamplerBlock S)), 0 < b.out.frames ∧ b.out.frames ≤ mf ∧ 0 ≤ b.start
  few : (blocks ch [] es : List (SamplerBlock S)).length ≤ blocksIn mf ks
  events : ∀ x ∈ es, match x with | .change _ c => c = e | .block _ n => 0 < n ∧ n ≤ mf
  before : ks.length ≤ i → (∀ b ∈ (blocks ch [] es : List (SamplerBlock S)), b.sent = []) ∧ unread [] es = []
  after : i < ks.length → ∃ pre post, (blocks ch [] es : List (SamplerBlock S)) = pre ++ post ∧
    (∀ b ∈ pre, b.sent = []) ∧ (pre.map fun b => b.out.frames).sum = framesIn (ks.take i) ∧
    ((post = [] ∧ unread [] es = [e]) ∨
      (∃ b q, post = b :: q ∧ b.sent = [e] ∧ (∀ c ∈ q, c.sent = []) ∧ unread [] es = []))

theorem one_sent {mf sr : Nat} (hm : 0 < mf) (hsr : 0 < sr) (hlt : sr < 2 ^ 33) (id : Id) (i : Nat) (e : SamplerEvent)
    {P : Type} {ks : List (Call S P SamplerEvent)} {es : List (ChainEvent SamplerEvent)}
    (h : ChainHistory mf sr (sendsOnly id i e) ks es) (ch : Nat) : OneSent mf sr ch i e ks es := by
  induction h with
  | nil => exact ⟨trivial, by simp [blocks], by simp [blocks], by simp, fun _ => ⟨by simp [blocks], rfl⟩, fun h => by simp at h⟩
  | @snoc ks es k bs h hb ih =>
    have htot := Chain.history_total h
    have hsum := (blocks_out (S := S) ch es []).2
    obtain ⟨acc, hacc⟩ : ∃ acc, acc = unread (unread [] es) ((sendsOnly id i e ks.length).map fun x => .change x.1 x.2) :=
      ⟨_, rfl⟩
    have hacc' : acc = unread [] es ++ (if ks.length = i then [e] else []) := by
      rw [hacc, sendsOnly]
      split
      · simp [unread]
      · simp [unread]
    have hnone : (blocks ch (unread [] es) ((sendsOnly id i e ks.length).map fun x => .change x.1 x.2) :
        List (SamplerBlock S)) = [] := by
      rw [sendsOnly]
      split <;> simp [blocks]
    have heq : (blocks ch [] (es ++ (sendsOnly id i e ks.length).map (fun x => .change x.1 x.2) ++
        bs.map fun b => .block b.1 b.2) : List (SamplerBlock S)) =
        blocks ch [] es ++ blocks ch acc (bs.map fun b => .block b.1 b.2) := by
      rw [blocks_append, blocks_append, unread_append, hnone, List.append_nil, hacc]
    have hun : unread [] (es ++ (sendsOnly id i e ks.length).map (fun x => .change x.1 x.2) ++
        bs.map fun b => .block b.1 b.2) = if bs = [] then acc else [] := by
      rw [unread_append, unread_append, ← hacc, (blocks_call (S := S) ch bs acc).2]
    obtain ⟨c1, c2, c3⟩ := call_blocks (S := S) hm hsr hlt hb ch acc
    obtain ⟨d1, d2⟩ := blocks_call (S := S) ch bs acc
    have hmem : ∀ b ∈ (blocks ch acc (bs.map fun b => .block b.1 b.2) : List (SamplerBlock S)),
        0 < b.out.frames ∧ b.out.frames ≤ mf ∧ 0 ≤ b.start := by
      intro b hb'
      rw [d1] at hb'
      cases bs with
      | nil => cases hb'
      | cons x xs =>
        simp only at hb'
        rcases List.mem_cons.mp hb' with rfl | hb'
        · exact c3 x (by simp)
        · obtain ⟨y, hy, rfl⟩ := List.mem_map.mp hb'
          exact c3 y (by simp [hy])
    have hlen : (blocks ch acc (bs.map fun b => .block b.1 b.2) : List (SamplerBlock S)).length = bs.length := by
      rw [d1]
      cases bs <;> simp
    refine ⟨?_, ?_, ?_, ?_, ?_, ?_⟩
    · rw [heq]
      refine onTime_append sr _ _ 0 ih.onTime ?_
      rw [hsum, htot, Nat.zero_add]
      exact c1
    · intro b hb'
      rw [heq, List.mem_append] at hb'
      rcases hb' with hb' | hb'
      · exact ih.some b hb'
      · exact hmem b hb'
    · rw [heq, List.length_append, hlen]
      have := ih.few
      simp only [blocksIn, List.map_append, List.sum_append, List.map_cons, List.map_nil, List.sum_cons, List.sum_nil] at *
      omega
    · intro x hx
      rw [List.mem_append, List.mem_append] at hx
      rcases hx with (hx | hx) | hx
      · exact ih.events x hx
      · obtain ⟨y, hy, rfl⟩ := List.mem_map.mp hx
        rw [sendsOnly] at hy
        split at hy
        · rw [List.mem_singleton] at hy; subst hy; rfl
        · cases hy
      · obtain ⟨y, hy, rfl⟩ := List.mem_map.mp hx
        exact ⟨(c3 y hy).1, (c3 y hy).2.1⟩
    · intro hi
      rw [List.length_append, List.length_singleton] at hi
      obtain ⟨q1, q2⟩ := ih.before (by omega)
      have ha : acc = [] := by rw [hacc', q2, if_neg (by omega), List.nil_append]
      rw [heq, hun]
      refine ⟨?_, by split <;> simp [ha]⟩
      intro b hb'
      rw [List.mem_append] at hb'
      rcases hb' with hb' | hb'
      · exact q1 b hb'
      · rw [d1, ha] at hb'
        cases bs with
        | nil => cases hb'
        | cons x xs =>
          simp only at hb'
          rcases List.mem_cons.mp hb' with rfl | hb'
          · rfl
          · obtain ⟨y, hy, rfl⟩ := List.mem_map.mp hb'
            rfl
    · intro hi
      rw [List.length_append, List.length_singleton] at hi
      rw [heq, hun]
      by_cases hki : ks.length = i
      · obtain ⟨q1, q2⟩ := ih.before (by omega)
        have ha : acc = [e] := by rw [hacc', q2, if_pos hki, List.nil_append]
        refine ⟨_, _, rfl, q1, ?_, ?_⟩
        · rw [hsum, htot, ← hki, List.take_left]
        · cases bs with
          | nil => left; exact ⟨by rw [d1], by rw [if_pos rfl, ha]⟩
          | cons x xs =>
            right
            refine ⟨_, _, d1, ha, ?_, by simp⟩
            intro c hc
            obtain ⟨y, hy, rfl⟩ := List.mem_map.mp hc
            rfl
      · obtain ⟨pre, post, p1, p2, p3, p4⟩ := ih.after (by omega)
        have hta : (ks ++ [k]).take i = ks.take i := List.take_append_of_le_length (by omega)
        rw [p1, List.append_assoc, hta]
        refine ⟨_, _, rfl, p2, p3, ?_⟩
        rcases p4 with ⟨rfl, p5⟩ | ⟨b, q, rfl, p5, p6, p7⟩
        · have ha : acc = [e] := by rw [hacc', p5, if_neg hki, List.append_nil]
          rw [List.nil_append]
          cases bs with
          | nil => left; exact ⟨by rw [d1], by rw [if_pos rfl, ha]⟩
          | cons x xs =>
            right
            refine ⟨_, _, d1, ha, ?_, by simp⟩
            intro c hc
            obtain ⟨y, hy, rfl⟩ := List.mem_map.mp hc
            rfl
        · have ha : acc = [] := by rw [hacc', p7, if_neg hki, List.append_nil]
          right
          refine ⟨b, _, List.cons_append, p5, ?_, by split <;> simp [ha]⟩
          intro c hc
          rw [List.mem_append] at hc
          rcases hc with hc | hc
          · exact p6 c hc
          · rw [d1, ha] at hc
            cases bs with
            | nil => cases hc
            | cons x xs =>
              simp only at hc
              rcases List.mem_cons.mp hc with rfl | hc
              · rfl
              · obtain ⟨y, hy, rfl⟩ := List.mem_map.mp hc
                rfl

end blocks

section heard

variable [AddZeroClass S]

theorem joined_append (as bs : List (SamplerBlock S)) : ∀ (gs hs : List (Grid S)) (c f : Nat), gs.length = as.length →
    joined (as ++ bs) (gs ++ hs) c f = if f < (as.map fun b => b.out.frames).sum then joined as gs c f
      else joined bs hs c (f - (as.map fun b => b.out.frames).sum) := by
  induction as with
  | nil =>
    intro gs hs c f h
    obtain rfl := List.length_eq_zero_iff.mp h
    simp
  | cons a as ih =>
    intro gs hs c f h
    cases gs with
    | nil => simp at h
    | cons g gs =>
      simp only [List.cons_append, joined, followed, List.map_cons, List.sum_cons]
      by_cases hf : f < a.out.frames
      · rw [if_pos hf, if_pos (by omega), if_pos hf]
      · rw [if_neg hf, ih gs hs c _ (by simpa using h), if_neg hf]
        by_cases h2 : f < a.out.frames + (as.map fun b => b.out.frames).sum
        · rw [if_pos (by omega), if_pos h2]
        · rw [if_neg (by omega), if_neg h2, Nat.sub_sub]

theorem joined_silent (bs : List (SamplerBlock S)) : (∀ b ∈ bs, b.out.val = silence) → ∀ c f,
    joined bs (bs.map SamplerBlock.out) c f = 0 := by
  induction bs with
  | nil => intro _ c f; rfl
  | cons b bs ih =>
    intro h c f
    simp only [List.map_cons, joined, followed]
    rw [h b (by simp), ih (fun x hx => h x (by simp [hx]))]
    split <;> rfl

theorem joined_started (sample : Grid S) (M : Nat) (bs : List (SamplerBlock S)) : ∀ F,
    (∀ b ∈ bs, b.out.channels = sample.channels ∧ b.out.val = silence) → ∀ c f,
    f < (bs.map fun b => b.out.frames).sum → joined bs (startedAt sample M F bs) c f = playsAt sample M c (F + f) := by
  induction bs with
  | nil => intro F _ c f hf; simp at hf
  | cons b bs ih =>
    intro F h c f hf
    obtain ⟨h1, h2⟩ := h b (by simp)
    simp only [startedAt, joined, followed]
    by_cases hfb : f < b.out.frames
    · rw [if_pos hfb, h1, h2, playsAt]
      simp only [silence, zero_add]
      split_ifs <;> first | rfl | (exfalso; omega)
    · simp only [List.map_cons, List.sum_cons] at hf
      rw [if_neg hfb, ih _ (fun x hx => h x (by simp [hx])) c _ (by omega)]
      congr 1
      omega

theorem startedAt_length (sample : Grid S) (M : Nat) (bs : List (SamplerBlock S)) : ∀ F,
    (startedAt sample M F bs).length = bs.length := by
  induction bs with
  | nil => intro F; rfl
  | cons b bs ih => intro F; simp [startedAt, ih]

end heard

/-! ## What happens is determined -/

theorem tiles_unique {full : Nat} (hf : 0 < full) (xs : List (Nat × Nat)) : ∀ (ys : List (Nat × Nat)) (a b : Nat),
    Tiles full a b xs → Tiles full a b ys → xs = ys := by
  induction xs with
  | nil =>
    intro ys a b h1 h2
    obtain rfl : a = b := h1
    cases ys with
    | nil => rfl
    | cons y ys =>
      obtain ⟨_, q2, _, _, q5⟩ := h2
      have := (tiles_length hf _ _ _ q5).1
      omega
  | cons x xs ih =>
    intro ys a b h1 h2
    obtain ⟨p1, p2, p3, p4, p5⟩ := h1
    have hx := (tiles_length hf _ _ _ p5).1
    cases ys with
    | nil => obtain rfl : a = b := h2; omega
    | cons y ys =>
      obtain ⟨q1, q2, q3, q4, q5⟩ := h2
      have hy := (tiles_length hf _ _ _ q5).1
      have e : x = y := Prod.ext (by omega) (by omega)
      subst e
      rw [ih ys _ _ p5 q5]

theorem history_unique {C P : Type} {mf sr : Nat} (hm : 0 < mf) (hsr : 0 < sr) (hlt : sr < 2 ^ 33)
    {changes : Nat → List (Id × C)} {ks : List (Call S P C)} {es : List (ChainEvent C)}
    (h : ChainHistory mf sr changes ks es) : ∀ {fs : List (ChainEvent C)}, ChainHistory mf sr changes ks fs → es = fs := by
  induction h with
  | nil =>
    intro fs h'
    generalize hk : ([] : List (Call S P C)) = ks at h'
    cases h' with
    | nil => rfl
    | snoc => simp at hk
  | @snoc ks es k bs h hb ih =>
    intro fs h'
    generalize hk : ks ++ [k] = ks' at h'
    cases h' with
    | nil => simp at hk
    | @snoc ls gs l cs h2 hc =>
      obtain ⟨rfl, hl⟩ := List.append_inj' hk rfl
      cases hl
      rw [ih h2]
      obtain ⟨now, xs, n1, n2, rfl⟩ := hb
      obtain ⟨now', ys, m1, m2, rfl⟩ := hc
      rw [Gain.nearest_unique hsr hlt n1, Gain.nearest_unique hsr hlt m1, tiles_unique hm xs ys _ _ n2 m2]

/-- The history of the first calls is the first part of the history. -/
theorem history_prefix {C P : Type} {mf sr : Nat} (hm : 0 < mf) (hsr : 0 < sr) (hlt : sr < 2 ^ 33)
    {changes : Nat → List (Id × C)} {ks : List (Call S P C)} {es : List (ChainEvent C)}
    (h : ChainHistory mf sr changes ks es) : ∀ {ls : List (Call S P C)} {fs : List (ChainEvent C)}, ls <+: ks →
    ChainHistory mf sr changes ls fs → fs <+: es := by
  induction h with
  | nil =>
    intro ls fs hp h'
    rw [List.prefix_nil] at hp
    subst hp
    rw [history_unique hm hsr hlt h' .nil]
  | @snoc ks es k bs h hb ih =>
    intro ls fs hp h'
    rcases List.prefix_concat_iff.mp hp with rfl | hp
    · rw [history_unique hm hsr hlt h' (.snoc k bs h hb)]
    · rw [List.append_assoc]
      exact (ih hp h').trans (List.prefix_append _ _)

theorem history_events {C P : Type} {mf sr : Nat} (hm : 0 < mf)
    {changes : Nat → List (Id × C)} {ks : List (Call S P C)} {es : List (ChainEvent C)}
    (h : ChainHistory mf sr changes ks es) :
    ∀ x ∈ es, match x with | .change i c => ∃ j, (i, c) ∈ changes j | .block _ n => 0 < n ∧ n ≤ mf := by
  induction h with
  | nil => simp
  | @snoc ks es k bs h hb ih =>
    intro x hx
    rw [List.mem_append, List.mem_append] at hx
    rcases hx with (hx | hx) | hx
    · exact ih x hx
    · obtain ⟨y, hy, rfl⟩ := List.mem_map.mp hx
      exact ⟨_, hy⟩
    · obtain ⟨y, hy, rfl⟩ := List.mem_map.mp hx
      obtain ⟨now, tiles, _, h2, rfl⟩ := hb
      obtain ⟨z, hz, rfl⟩ := List.mem_map.mp hy
      exact (tiles_length hm tiles _ _ h2).2.2 z hz

theorem run_prefix [Add S] [Mul S] [One S] (as bs : List (SamplerBlock S)) : ∀ {s t : Sampler S} {f : Nat}
    {outs : List (Grid S)}, run f s (as ++ bs) = .ok (t, outs) →
    ∃ u, run f s as = .ok (u, outs.take as.length) ∧ as.length ≤ outs.length := by
  induction as with
  | nil => intro s t f outs _; exact ⟨s, rfl, Nat.zero_le _⟩
  | cons a as ih =>
    intro s t f outs h
    rw [List.cons_append, run] at h
    simp only [bind] at h
    cases hp : (s.sendAll a.sent).processAudio f a.out a.start with
    | error e => rw [hp] at h; cases h
    | ok r =>
      rw [hp] at h
      simp only [Except.bind] at h
      cases hr : run f r.1 (as ++ bs) with
      | error e => rw [hr] at h; cases h
      | ok q =>
        rw [hr] at h
        cases h
        obtain ⟨u, h1, h2⟩ := ih hr
        refine ⟨u, ?_, by simpa using h2⟩
        rw [run]
        simp only [bind]
        rw [hp]
        simp only [Except.bind]
        rw [h1]
        rfl

theorem startedAt_take [Add S] (sample : Grid S) (M : Nat) (as bs : List (SamplerBlock S)) : ∀ F,
    (startedAt sample M F (as ++ bs)).take as.length = startedAt sample M F as := by
  induction as with
  | nil => intro F; rfl
  | cons a as ih => intro F; simp [startedAt, ih]

theorem startedAt_append [Add S] (sample : Grid S) (M : Nat) (as bs : List (SamplerBlock S)) : ∀ F,
    startedAt sample M F (as ++ bs) =
      startedAt sample M F as ++ startedAt sample M (F + (as.map fun b => b.out.frames).sum) bs := by
  induction as with
  | nil => intro F; simp [startedAt]
  | cons a as ih => intro F; simp [startedAt, ih, Nat.add_assoc]

theorem blocks_prefix [Zero S] (ch : Nat) {es fs : List (ChainEvent SamplerEvent)} (h : es <+: fs) :
    (blocks ch [] es : List (SamplerBlock S)) <+: blocks ch [] fs := by
  obtain ⟨gs, rfl⟩ := h
  rw [blocks_append]
  exact List.prefix_append _ _

/-- A session in which one event is sent, from what a sampler plays that is sent the event at the start. -/
theorem session_blocks [AddZeroClass S] [Mul S] [One S] {mf sr : Nat} (hm : 0 < mf) (h0 : 0 < sr) (h1 : sr < 2 ^ 32) {id : Id} {i : Nat}
    {e : SamplerEvent} (sample : Grid S) (fade : Fade S) (hL : 0 < fade.values.length)
    {ks : List (Call S (Sampler S) SamplerEvent)}
    {es : List (ChainEvent SamplerEvent)} (h : ChainHistory mf sr (sendsOnly id i e) ks es)
    (Q : Nat → Prop) (hQ : ∃ M, framesIn (ks.take i) ≤ M ∧ Q M)
    (hplay : ∀ (s : Sampler S) (F : Nat) (b : SamplerBlock S) (bs : List (SamplerBlock S)), s.Idle →
      s.events.pending = [] → s.buffer = sample → s.sampleRate = sr → F = framesIn (ks.take i) →
      b.sent = [e] → (∀ c ∈ bs, c.sent = []) → (∀ c ∈ b :: bs, 0 < c.out.frames ∧ 0 ≤ c.start) →
      OnTime sr F (b :: bs) → bs.length + 1 ≤ blocksIn mf ks → F + ((b :: bs).map fun c => c.out.frames).sum = framesIn ks →
      ∃ M f t, F ≤ M ∧ Q M ∧ run f s (b :: bs) = .ok (t, startedAt sample M F (b :: bs))) :
    ∃ M f t, Q M ∧ run f (Sampler.new sr sample fade) (blocks sample.channels [] es) =
      .ok (t, startedAt sample M 0 (blocks sample.channels [] es)) := by
  have ho := one_sent (S := S) hm h0 (by omega) id i e h sample.channels
  have hid := new_idle sr h0 h1 sample fade hL
  have hsum : ((blocks sample.channels [] es : List (SamplerBlock S)).map fun b => b.out.frames).sum = framesIn ks := by
    rw [(blocks_out sample.channels es []).2, Chain.history_total h]
  have quiet : (∀ b ∈ (blocks sample.channels [] es : List (SamplerBlock S)), b.sent = []) →
      framesIn ks ≤ framesIn (ks.take i) →
      ∃ M f t, Q M ∧ run f (Sampler.new sr sample fade) (blocks sample.channels [] es) =
        .ok (t, startedAt sample M 0 (blocks sample.channels [] es)) := by
    intro hq hF
    obtain ⟨M, m1, m2⟩ := hQ
    obtain ⟨f, t, r, _⟩ := idle_run _ hid rfl (fun c hc => ⟨hq c hc, (ho.some c hc).1⟩)
    refine ⟨M, f, t, m2, ?_⟩
    rw [r, startedAt_silent _ _ _ _ (by rw [hsum]; omega)]
  by_cases hi : i < ks.length
  · obtain ⟨pre, post, p1, p2, p3, p4⟩ := ho.after hi
    rcases p4 with ⟨rfl, _⟩ | ⟨b, q, rfl, p5, p6, _⟩
    · rw [List.append_nil] at p1
      exact quiet (by rw [p1]; exact p2) (by rw [← p3, ← hsum, p1])
    · obtain ⟨f, t, r1, r2, r3, r4⟩ := idle_run pre hid rfl (fun c hc => ⟨p2 c hc, (ho.some c (by rw [p1]; simp [hc])).1⟩)
      have hon := ho.onTime
      have hfew := ho.few
      rw [p1] at hon hfew
      have onTime_drop : ∀ (as bs : List (SamplerBlock S)) F, OnTime sr F (as ++ bs) →
          OnTime sr (F + (as.map fun b => b.out.frames).sum) bs := by
        intro as
        induction as with
        | nil => intro bs F h; simpa using h
        | cons a as ih =>
          intro bs F h
          have := ih bs _ h.2
          simpa [Nat.add_assoc] using this
      obtain ⟨M, g, u, m1, m2, m3⟩ := hplay t _ b q r2 r3 r4.buffer r4.sampleRate p3 p5 p6
        (fun c hc => ⟨(ho.some c (by rw [p1]; simp only [List.mem_append]; exact Or.inr hc)).1,
          (ho.some c (by rw [p1]; simp only [List.mem_append]; exact Or.inr hc)).2.2⟩)
        (by have := onTime_drop _ _ _ hon; rwa [Nat.zero_add] at this)
        (by simp only [List.length_append, List.length_cons] at hfew; omega)
        (by rw [← hsum, p1, List.map_append, List.sum_append])
      obtain ⟨w, hw⟩ := run_append pre (b :: q) r1 m3
      refine ⟨M, w, u, m2, ?_⟩
      rw [p1, hw, startedAt_append, startedAt_silent sample M pre 0 (by omega), Nat.zero_add]
  · obtain ⟨q1, _⟩ := ho.before (by omega)
    exact quiet q1 (by rw [List.take_of_length_le (by omega)])

end Sampler
end Rawdio
