import Verif.Lemmas.MixedHistory
import Verif.Lemmas.SamplerNode
import Verif.Props.SamplerLoop

/-! Helper lemmas: a sampler that is told what to play at the start of a session. -/

namespace Rawdio
namespace Sampler

variable {S : Type}

section blocks

variable [Zero S]

/-- The blocks of a session in which events are sent before the first call only. -/
structure FirstSent (mf ch : Nat) (sent : List SamplerEvent) {P C : Type} (ks : List (Call S P C))
    (es : List (ChainEvent SamplerEvent)) : Prop where
  some : ∀ b ∈ (blocks ch [] es : List (SamplerBlock S)), 0 < b.out.frames ∧ 0 ≤ b.start
  few : (blocks ch [] es : List (SamplerBlock S)).length ≤ blocksIn mf ks
  sent : (ks = [] ∧ es = []) ∨ (ks ≠ [] ∧ (blocks ch [] es : List (SamplerBlock S)) = [] ∧ unread [] es = sent) ∨
    ∃ x xs, (blocks ch [] es : List (SamplerBlock S)) = x :: xs ∧ x.sent = sent ∧ (∀ c ∈ xs, c.sent = []) ∧
      unread [] es = [] ∧ ks ≠ []

theorem first_sent {mf sr : Nat} (hm : 0 < mf) (hsr : 0 < sr) (hlt : sr < 2 ^ 33) (id : Id) (sent : List SamplerEvent)
    {P : Type} {ks : List (Call S P SamplerEvent)} {es : List (ChainEvent SamplerEvent)}
    (h : ChainHistory mf sr (fun i => if i = 0 then sent.map (fun e => (id, e)) else []) ks es) (ch : Nat) :
    FirstSent mf ch sent ks es := by
  induction h with
  | nil => exact ⟨by simp [blocks], by simp [blocks], .inl ⟨rfl, rfl⟩⟩
  | @snoc ks es k bs h hb ih =>
    obtain ⟨chg, hchg⟩ : ∃ chg, chg = (if ks.length = 0 then sent.map (fun e => (id, e)) else []) := ⟨_, rfl⟩
    rw [← hchg]
    obtain ⟨acc, hacc⟩ : ∃ acc, acc = unread (unread [] es) (chg.map fun x => .change x.1 x.2) := ⟨_, rfl⟩
    have key : ∀ (l : List (Id × SamplerEvent)) (a : List SamplerEvent),
        (blocks ch a (l.map fun x => .change x.1 x.2) : List (SamplerBlock S)) = [] ∧
        unread a (l.map fun x => .change x.1 x.2) = a ++ l.map Prod.snd := by
      intro l
      induction l with
      | nil => intro a; exact ⟨rfl, by simp [unread]⟩
      | cons y ys ihy =>
        intro a
        obtain ⟨i1, i2⟩ := ihy (a ++ [y.2])
        exact ⟨by simpa [blocks] using i1, by simp only [List.map_cons, unread, i2]; simp⟩
    have hnone := (key chg (unread [] es)).1
    have hacc' : acc = unread [] es ++ chg.map Prod.snd := by rw [hacc, (key chg _).2]
    have heq : (blocks ch [] (es ++ chg.map (fun x => .change x.1 x.2) ++ bs.map fun b => .block b.1 b.2) :
        List (SamplerBlock S)) = blocks ch [] es ++ blocks ch acc (bs.map fun b => .block b.1 b.2) := by
      rw [blocks_append, blocks_append, unread_append, hnone, List.append_nil, hacc]
    have hun : unread [] (es ++ chg.map (fun x => .change x.1 x.2) ++ bs.map fun b => .block b.1 b.2) =
        if bs = [] then acc else [] := by
      rw [unread_append, unread_append, ← hacc, (blocks_call (S := S) ch bs acc).2]
    obtain ⟨_, c2, c3⟩ := call_blocks (S := S) hm hsr hlt hb ch acc
    obtain ⟨d1, d2⟩ := blocks_call (S := S) ch bs acc
    have hlen : (blocks ch acc (bs.map fun b => .block b.1 b.2) : List (SamplerBlock S)).length = bs.length := by
      rw [d1]
      cases bs <;> simp
    refine ⟨?_, ?_, ?_⟩
    · intro b hb'
      rw [heq, List.mem_append] at hb'
      rcases hb' with hb' | hb'
      · exact ih.some b hb'
      · rw [d1] at hb'
        cases bs with
        | nil => cases hb'
        | cons x xs =>
          simp only at hb'
          rcases List.mem_cons.mp hb' with rfl | hb'
          · exact ⟨(c3 x (by simp)).1, (c3 x (by simp)).2.2⟩
          · obtain ⟨y, hy, rfl⟩ := List.mem_map.mp hb'
            exact ⟨(c3 y (by simp [hy])).1, (c3 y (by simp [hy])).2.2⟩
    · rw [heq, List.length_append, hlen]
      have := ih.few
      simp only [blocksIn, List.map_append, List.sum_append, List.map_cons, List.map_nil, List.sum_cons, List.sum_nil] at *
      omega
    · right
      rw [heq, hun]
      have waiting : (blocks ch [] es : List (SamplerBlock S)) = [] → acc = sent →
          (ks ++ [k] ≠ [] ∧ (blocks ch [] es : List (SamplerBlock S)) ++ blocks ch acc (bs.map fun b => .block b.1 b.2) = [] ∧
            (if bs = [] then acc else []) = sent) ∨
          ∃ x xs, (blocks ch [] es : List (SamplerBlock S)) ++ blocks ch acc (bs.map fun b => .block b.1 b.2) = x :: xs ∧
            x.sent = sent ∧ (∀ c ∈ xs, c.sent = []) ∧ (if bs = [] then acc else []) = [] ∧ ks ++ [k] ≠ [] := by
        intro h1 h2
        rw [h1, List.nil_append]
        cases bs with
        | nil => left; exact ⟨by simp, by rw [d1], by simpa using h2⟩
        | cons x xs =>
          right
          refine ⟨_, _, d1, h2, ?_, by simp, by simp⟩
          intro c hc
          obtain ⟨y, hy, rfl⟩ := List.mem_map.mp hc
          rfl
      rcases ih.sent with ⟨rfl, rfl⟩ | ⟨h1, h2, h3⟩ | ⟨x, xs, h1, h2, h3, h4, h5⟩
      · refine waiting rfl ?_
        rw [hacc', hchg]
        simp [unread, Function.comp_def]
      · refine waiting h2 ?_
        rw [hacc', hchg, if_neg (by simpa using h1), h3]
        simp
      · right
        have ha : acc = [] := by
          rw [hacc', hchg, if_neg (by simpa using h5), h4]
          simp
        rw [h1]
        refine ⟨x, _, List.cons_append, h2, ?_, by simp [ha], by simp⟩
        intro c hc
        rw [List.mem_append] at hc
        rcases hc with hc | hc
        · exact h3 c hc
        · rw [d1, ha] at hc
          cases bs with
          | nil => cases hc
          | cons y ys =>
            simp only at hc
            rcases List.mem_cons.mp hc with rfl | hc
            · rfl
            · obtain ⟨z, hz, rfl⟩ := List.mem_map.mp hc
              rfl

end blocks

theorem joined_added [AddZeroClass S] (x : Nat → Nat → S) (ch : Nat) (bs : List (SamplerBlock S)) : ∀ F,
    (∀ b ∈ bs, b.out.channels = ch ∧ b.out.val = silence) → ∀ c f, c < ch →
    f < framesOf bs → joined bs (addedFrom x F bs) c f = x c (F + f) := by
  induction bs with
  | nil => intro F _ c f _ hf; simp [framesOf] at hf
  | cons b bs ih =>
    intro F h c f hc hf
    obtain ⟨h1, h2⟩ := h b (by simp)
    simp only [addedFrom, joined, followed]
    by_cases hfb : f < b.out.frames
    · rw [if_pos hfb, h1, h2, if_pos ⟨hc, hfb⟩]
      simp only [silence, zero_add]
    · simp only [framesOf, List.map_cons, List.sum_cons] at hf
      rw [if_neg hfb, ih _ (fun x hx => h x (by simp [hx])) c _ hc (by rw [framesOf]; omega)]
      congr 1
      omega

theorem blocksIn_bare {P P' C D : Type} (mf : Nat) (ks : List (Call S P D)) :
    blocksIn mf (ks.map (Call.bare : Call S P D → Call S P' C)) = blocksIn mf ks := by
  rw [blocksIn, blocksIn, List.map_map]
  rfl

/-- A sampler among other nodes, from what it plays that is sent some events at the start. -/
theorem among_nodes {P : Type} (id : Id) (sample : Grid ℝ) (fade : Fade ℝ) (mf sr : Nat) (hm : 0 < mf) (hsr : 0 < sr)
    (hlt : sr < 2 ^ 32) (sent : List SamplerEvent) (reqs : List (Id × MixedRequest))
    (hreqs : (reqs.filterMap fun x => if x.1 = id then x.2.sampler? else none) = sent)
    (ks : List (Call ℝ P MixedRequest)) (es : List (ChainEvent MixedRequest))
    (h : ChainHistory mf sr (fun i => if i = 0 then reqs else []) ks es) (x z : Nat → Nat → ℝ)
    (hz : (NodeKind.sampler sample fade).Makes sr (framesIn ks) id es x z) (y : Nat → Nat → ℝ)
    (hplay : ∀ b bs, b.sent = sent → 0 ≤ b.start → 0 < b.out.frames → (∀ c ∈ bs, c.sent = [] ∧ 0 < c.out.frames) →
      bs.length + 1 ≤ blocksIn mf ks → framesOf (b :: bs) = framesIn ks →
      ∃ f t, run f (new sr sample fade) (b :: bs) = .ok (t, addedFrom y 0 (b :: bs))) (c F : Nat)
    (hF : F < framesIn ks) : z c F = if c < sample.channels then y c F else 0 := by
  obtain ⟨fuel, s, outs, r1, r2⟩ := hz
  rw [r2 c F hF]
  split
  · rename_i hc
    have hs := history_seen (P' := P) id MixedRequest.sampler? h
    have hchg : (fun j => seenBy id MixedRequest.sampler? ((fun i => if i = 0 then reqs else []) j)) =
        fun i => if i = 0 then sent.map (fun e => (id, e)) else [] := by
      funext j
      by_cases hj : j = 0
      · simp only [hj, if_true, seenBy, ← hreqs, List.map_filterMap]
        congr 1
        funext q
        split <;> rfl
      · simp [hj, seenBy]
    rw [hchg] at hs
    have hfs := first_sent (S := ℝ) hm hsr (by omega) id sent hs sample.channels
    have hsum := (blocks_out (S := ℝ) sample.channels (es.filterMap (ChainEvent.seen id MixedRequest.sampler?)) []).2
    rw [Chain.history_total hs, framesIn_bare] at hsum
    obtain ⟨bl, hbl⟩ : ∃ bl, bl = (blocks sample.channels [] (es.filterMap
      (ChainEvent.seen id MixedRequest.sampler?)) : List (SamplerBlock ℝ)) := ⟨_, rfl⟩
    have hout := (blocks_out (S := ℝ) sample.channels (es.filterMap (ChainEvent.seen id MixedRequest.sampler?)) []).1
    have hsome := hfs.some
    have hfew := hfs.few
    rw [blocksIn_bare] at hfew
    have hsent := hfs.sent
    simp only [← hbl] at *
    rcases hsent with ⟨h1, -⟩ | ⟨-, h2, -⟩ | ⟨b, bs, h1, h2, h3, -, -⟩
    · have : ks = [] := by simpa using h1
      subst this
      simp [framesIn] at hF
    · rw [h2] at hsum
      simp at hsum
      omega
    · rw [h1] at hsome hfew
      obtain ⟨f, t, hr⟩ := hplay b bs h2 (hsome b (by simp)).2 (hsome b (by simp)).1
        (fun c hc => ⟨h3 c hc, (hsome c (by simp [hc])).1⟩) (by simpa using hfew) (by rw [← h1]; exact hsum)
      have e1 := run_mono _ r1 f
      have e2 := run_mono _ hr fuel
      rw [h1] at e1
      rw [Nat.add_comm, e1] at e2
      injection e2 with e2
      injection e2 with _ e2
      rw [e2, h1, joined_added y sample.channels _ 0 (by rw [← h1]; exact hout) c F hc (by rw [← h1]; rw [framesOf]; omega),
        Nat.zero_add]
  · rfl

end Sampler
end Rawdio
