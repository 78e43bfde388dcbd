import Verif.Lemmas.MeterNode
import Verif.Lemmas.RecorderKeepsUp
import Verif.Props.Progress

/-!
# C100: meters in an engine
-/

namespace Rawdio
open Processor Network

variable {P C : Type}

namespace MeterNode

theorem sessionBlocks_bare {S P P' C D : Type} (mf : Nat) (ks : List (Call S P D)) :
    sessionBlocks mf (ks.map (Call.bare : Call S P D → Call S P' C)) = sessionBlocks mf ks := by
  rw [sessionBlocks, sessionBlocks, List.map_map]
  rfl

end MeterNode

/-- C100: a meter in an engine, with any nodes around it, when all blocks have at least as many frames as the meter has
channels and no notification is due before so many frames of a block. What its program has taken, what it could take
and what is on the way to it are, together and in this order, the reports of the signal that went into it: whenever a
notification has become due in a block, at its end the highest level of each channel since the last report. All that was
reported before the program polled and took the notifications has been taken. The meter is silent, and what is heard is
what C86 says of the network. -/
theorem C100_meter (others : NodeOps ℝ P C) (mf mc sr : Nat) (hm : 0 < mf) (hsr : 0 < sr)
    (program : Nat → List (ApiCall (WithMeters P) (WithMeters.Request C)))
    (hP : Program program) (hp : Plain (made (program 0)) (links (program 0)) (input (program 0))) (i : Id)
    (m : MeterKind) (hpos : 0 < m.channels) (hf : 0 < m.frequency) (d : Dsp MeterNode)
    (hd : MeterNode.make sr i m.channels m.attackTime m.releaseTime m.frequency = .ok d)
    (hmade : d.within .meter ∈ made (program 0))
    (waiting ks : List (Call ℝ (WithMeters P) (WithMeters.Request C))) (hks : ks ≠ [])
    (hv : ∀ k ∈ waiting ++ ks, k.Valid) (hdel : Delivered program waiting ks)
    (hst : m.Steady sr (sessionBlocks mf ks)) (E : Processor ℝ (WithMeters P))
    (hE : calls (WithMeters.ops others) (new sr mc mf) (waiting ++ ks) = .ok E) :
    ∃ es sig s x, ChainHistory mf sr (fun i => requests (program i)) ks es ∧
      Plays (WithMeters.ops others) sr (made (program 0)) (links (program 0)) (input (program 0)) es
        (sessionInput true mc ks) sig ∧
      x = arriving (links (program 0)) (input (program 0)) (sessionInput true mc ks) sig i ∧
      E.graph.graph.getNode i = some ⟨i, m.channels, m.channels, .meter s⟩ ∧ sig i = Rawdio.silence ∧
      s.taken ++ s.node.notifications ++ s.node.channel = m.reports sr (sessionBlocks mf ks) x ∧
      (∀ l < ks.length, [(i, .meter .poll), (i, .meter .take)].Sublist (requests (program l)) →
        m.reports sr (sessionBlocks mf (ks.take l)) x <+: s.taken) ∧
      ∀ i k E1 o E2, (waiting ++ ks)[i]? = some k →
        calls (WithMeters.ops others) (new sr mc mf) ((waiting ++ ks).take i) = .ok E1 →
        E1.process (WithMeters.ops others) k.env k.commands k.input k.output = .ok (o, E2) →
        ∀ c f, c < k.output.channelCount → f < k.output.frameCount →
          o.sample? c f = some (if i < waiting.length then 0
            else heard (output (program 0)) mc sig c (framesIn (ks.take (i - waiting.length)) + f)) := by
  obtain ⟨es, sig, h1, h2, hheard⟩ := Network.states _ mf mc sr hm program hP hp waiting ks hv hdel E hE
  obtain ⟨e, e1, e2⟩ := h2 _ hmade
  obtain ⟨x, hx⟩ : ∃ x, arriving (links (program 0)) (input (program 0)) (sessionInput true mc ks) sig i = x := ⟨_, rfl⟩
  obtain ⟨d1, d2, d3, d4, _⟩ := MeterNode.keeps_new hsr hf i x hd
  have hid : (d.within (WithMeters.meter (P := P))).id = i := d1
  rw [hid, hx] at e2
  rw [hid] at e1
  obtain ⟨d', g1, g2⟩ := (WithMeters.embeds_meter others).chainRun_within es e2
  have hh := history_seen (P' := WithMeters P) i WithMeters.Request.meter? h1
  have hbl := MeterNode.history_eventBlocks hm hh
  rw [MeterNode.sessionBlocks_bare] at hbl
  obtain ⟨did, din, dout, dst⟩ := d
  obtain rfl : did = i := d1
  obtain rfl : din = m.channels := d2
  obtain rfl : dout = m.channels := d3
  have hl0 : x = later 0 x := by funext c f; simp [later]
  have g1' := g1
  rw [hl0] at g1'
  obtain ⟨s, hL, k1, _, k3⟩ := MeterNode.run_keeps hpos did x _ d4 (by rw [hbl]; exact hst) g1'
  rw [hbl, List.nil_append] at k1
  injection hL with hL _
  subst hL
  injection g2 with g2 _
  subst g2
  refine ⟨es, sig, s, x, h1, fun d hd => ?_, hx.symm, e1 (List.length_pos_of_ne_nil hks), k3, k1.sent, ?_, hheard⟩
  · obtain ⟨e, _, h⟩ := h2 d hd
    exact ⟨e, h⟩
  · intro l hl hsub
    obtain ⟨es1, es2, he, _, hb⟩ := MeterNode.history_parts hm hh l (by simpa using hl)
    rw [← List.map_take, MeterNode.sessionBlocks_bare] at hb
    rw [← hb]
    rw [he] at g1 hbl
    refine MeterNode.session_taken hpos did x d4 (by rw [hbl]; exact hst) g1 ?_
    have := hsub.filterMap fun z : Id × WithMeters.Request C =>
      if z.1 = did then z.2.meter?.map fun c => (did, c) else none
    simpa [seenBy, WithMeters.Request.meter?] using this

/-- C100: all process calls of such a session succeed, if the program is careful (C79), the other nodes can be rendered,
and each meter is polled before more than 64 notifications have been sent. -/
theorem C100_keeps_up (others : NodeOps ℝ P C) (mf mc sr : Nat) (hm : 0 < mf) (hsr : 0 < sr) (I : Dsp P → Prop)
    (A : Id → C → Prop) (H : Healthy others mf sr I A)
    (program : Nat → List (ApiCall (WithMeters P) (WithMeters.Request C))) (hP : Program program)
    (hc : ∀ n, Allowed (fun h c => h.Typed c ∧ h.Careful mc c) Holding.empty ((List.range n).flatMap program))
    (waiting ks : List (Call ℝ (WithMeters P) (WithMeters.Request C)))
    (hmade : ∀ d ∈ made (program 0),
      (∃ d0 : Dsp P, d = d0.within .other ∧ I d0 ∧
        ∀ l r, (d.id, r) ∈ requests (program l) → ∃ c, r = .other c ∧ A d.id c) ∨
      (∃ (m : MeterKind) (d0 : Dsp MeterNode), d = d0.within .meter ∧ 0 < m.channels ∧ 0 < m.frequency ∧
        MeterNode.make sr d.id m.channels m.attackTime m.releaseTime m.frequency = .ok d0 ∧
        m.Steady sr (sessionBlocks mf ks) ∧ MeterPolled m sr mf (fun l => requests (program l)) d.id ks ∧
        ∀ l r, (d.id, r) ∈ requests (program l) → ∃ c, r = .meter c))
    (hks : ks ≠ []) (hv : ∀ k ∈ waiting ++ ks, k.Valid) (hd : Delivered program waiting ks) :
    ∃ E, calls (WithMeters.ops others) (new sr mc mf) (waiting ++ ks) = .ok E := by
  refine C86_succeeds _ mf mc sr hm program hP hc waiting ks hks hv hd ?_
  intro es hes d hdm x
  have hev := Sampler.history_events hm hes
  rcases hmade d hdm with ⟨d0, rfl, h0, hr⟩ | ⟨m, d0, hdm, hpos, hf, hmk, hst, hpoll, hr⟩
  · have hid : (d0.within (WithMeters.other (P := P))).id = d0.id := rfl
    rw [hid] at hr
    obtain ⟨y, d', h1⟩ := H.chainRun (es.filterMap (ChainEvent.seen d0.id WithMeters.Request.other?)) x h0 (by
      intro e he
      have := mem_seen he
      cases e with
      | change j c =>
        intro hj
        subst hj
        obtain ⟨_, r, hr2, hr1⟩ := this
        obtain ⟨l, hl⟩ := hev _ hr1
        obtain ⟨c', rfl, hA⟩ := hr l r hl
        injection hr2 with hr2
        subst hr2
        exact hA
      | block t n => exact hev _ this)
    refine ⟨_, (WithMeters.embeds_other others).chainRun_ok es (fun r hre => ?_) h1⟩
    obtain ⟨l, hl⟩ := hev _ hre
    obtain ⟨c', rfl, _⟩ := hr l r hl
    rfl
  · obtain ⟨i, hi⟩ : ∃ i, d.id = i := ⟨_, rfl⟩
    rw [hi] at hmk hpoll hr
    subst hdm
    obtain ⟨d1, d2, d3, d4, d5⟩ := MeterNode.keeps_new hsr hf i x hmk
    have hh := history_seen (P' := WithMeters P) i WithMeters.Request.meter? hes
    have hbl := MeterNode.history_eventBlocks hm hh
    rw [MeterNode.sessionBlocks_bare] at hbl
    obtain ⟨did, din, dout, dst⟩ := d0
    obtain rfl : did = i := d1
    obtain rfl : din = m.channels := d2
    obtain rfl : dout = m.channels := d3
    have hl0 : x = later 0 x := by funext c f; simp [later]
    obtain ⟨y, d', h1⟩ := MeterNode.run_ok hpos did x (es.filterMap (ChainEvent.seen did WithMeters.Request.meter?)) d4
      (by rw [hbl]; exact hst) (q := 0) (le_of_eq (by rw [d5]; rfl))
      (MeterNode.fits_session hm hh did (by
        intro l hl
        rw [List.length_map] at hl
        obtain ⟨p, p1, p2, p3⟩ := hpoll l hl
        refine ⟨p, p1, ?_, ?_⟩
        · rcases p2 with h | h
          · exact .inl h
          · refine .inr (List.mem_filterMap.mpr ⟨_, h, ?_⟩)
            simp [WithMeters.Request.meter?]
        · rw [← List.map_take, ← List.map_take, MeterNode.sessionBlocks_bare, MeterNode.sessionBlocks_bare]
          exact p3))
    rw [← hl0] at h1
    refine ⟨_, (WithMeters.embeds_meter others).chainRun_ok es (fun r hre => ?_) h1⟩
    obtain ⟨l, hl⟩ := hev _ hre
    obtain ⟨c', rfl⟩ := hr l r hl
    rfl

/-- C100 is violated: a block with fewer frames than a meter has channels ends the session. There is such a block
whenever the number of frames of a process call, divided by the maximum of the engine, leaves such a remainder. -/
theorem C100_short_blocks_violated (others : NodeOps ℝ P C) (mf mc sr : Nat) (hm : 0 < mf) (hsr : 0 < sr)
    (program : Nat → List (ApiCall (WithMeters P) (WithMeters.Request C)))
    (hP : Program program) (hp : Plain (made (program 0)) (links (program 0)) (input (program 0))) (i : Id)
    (m : MeterKind) (hf : 0 < m.frequency) (d : Dsp MeterNode)
    (hd : MeterNode.make sr i m.channels m.attackTime m.releaseTime m.frequency = .ok d)
    (hmade : d.within .meter ∈ made (program 0))
    (waiting ks : List (Call ℝ (WithMeters P) (WithMeters.Request C)))
    (hv : ∀ k ∈ waiting ++ ks, k.Valid) (hdel : Delivered program waiting ks)
    (k : Call ℝ (WithMeters P) (WithMeters.Request C)) (hk : k ∈ ks) (h0 : 0 < k.output.frameCount % mf)
    (hlt : k.output.frameCount % mf < m.channels) (E : Processor ℝ (WithMeters P)) :
    calls (WithMeters.ops others) (new sr mc mf) (waiting ++ ks) ≠ .ok E := by
  intro hE
  obtain ⟨es, sig, h1, h2, -⟩ := Network.states _ mf mc sr hm program hP hp waiting ks hv hdel E hE
  obtain ⟨e, e1, e2⟩ := h2 _ hmade
  obtain ⟨d', g1, g2⟩ := (WithMeters.embeds_meter others).chainRun_within es e2
  obtain ⟨d1, d2, d3, d4, _⟩ := MeterNode.keeps_new hsr hf i silence hd
  obtain ⟨did, din, dout, dst⟩ := d
  obtain rfl : did = i := d1
  obtain rfl : din = m.channels := d2
  obtain rfl : dout = m.channels := d3
  refine MeterNode.run_short (m := m) did _ (T := 0) d4.count ?_ g1
  rw [MeterNode.eventBlocks_seen, MeterNode.history_eventBlocks hm h1]
  obtain ⟨as, bs, rfl⟩ := List.append_of_mem hk
  rw [sessionBlocks, List.map_append, MeterNode.blocksFrom_append, List.map_cons, blocksFrom]
  refine ⟨(0 + (as.map fun k => k.output.frameCount).sum + k.output.frameCount / mf * mf, k.output.frameCount % mf), ?_, hlt⟩
  refine List.mem_append_right _ (List.mem_append_left _ ?_)
  rw [callBlocks, if_neg (by omega)]
  simp

end Rawdio
