import Verif.Lemmas.MixedNodes
import Verif.Lemmas.Rewiring
import Verif.Lemmas.SamplerNode
import Verif.Spec.MixedNodes

/-! Helper lemmas about everything that a network plays that changes while it plays. -/

namespace Rawdio
namespace Network

open Processor Chain

variable {S P C : Type}

theorem played_snoc (program : Nat → List (ApiCall P C)) (ks : List (Call S P C)) (k : Call S P C) :
    played program (ks ++ [k]) =
      played program ks + if started (upTo program ks.length) = true then k.output.frameCount else 0 := by
  unfold played
  rw [List.zipIdx_append, List.map_append, List.sum_append]
  simp

theorem played_take (program : Nat → List (ApiCall P C)) {ks : List (Call S P C)} {m : Nat} {k : Call S P C}
    (hk : ks[m]? = some k) : played program (ks.take (m + 1)) =
      played program (ks.take m) + if started (upTo program m) = true then k.output.frameCount else 0 := by
  obtain ⟨hlt, rfl⟩ := List.getElem?_eq_some_iff.mp hk
  rw [List.take_succ_eq_append_getElem hlt, played_snoc, List.length_take_of_le hlt.le]

theorem played_mono (program : Nat → List (ApiCall P C)) (ks : List (Call S P C)) {m n : Nat} (h : m ≤ n) :
    played program (ks.take m) ≤ played program (ks.take n) := by
  induction n with
  | zero => obtain rfl : m = 0 := by omega
            exact le_refl _
  | succ n ih =>
    rcases Nat.lt_or_ge m (n + 1) with h1 | h1
    · refine (ih (by omega)).trans ?_
      cases hk : ks[n]? with
      | none =>
        rw [List.getElem?_eq_none_iff] at hk
        rw [List.take_of_length_le hk, List.take_of_length_le (by omega)]
      | some k => rw [played_take program hk]; omega
    · obtain rfl : m = n + 1 := by omega
      exact le_refl _

theorem total_append (as bs : List (ChainEvent C)) :
    ChainEvent.total (as ++ bs) = ChainEvent.total as + ChainEvent.total bs := by simp [ChainEvent.total]

theorem total_call {full sr F n : Nat} {cs : List (Id × C)} {bs : List (Int × Nat)} (go : Bool)
    (h : if go = true then BlocksOf full sr F n bs else bs = []) :
    ChainEvent.total (cs.map (fun x => (.change x.1 x.2 : ChainEvent C)) ++ bs.map fun b => .block b.1 b.2) =
      if go = true then n else 0 := by
  have hch : ChainEvent.total (cs.map fun x => (.change x.1 x.2 : ChainEvent C)) = 0 := by
    induction cs with
    | nil => rfl
    | cons c cs ih => simpa [ChainEvent.total, ChainEvent.frames] using ih
  rw [total_append, hch, Nat.zero_add]
  cases go with
  | false =>
    have : bs = [] := by simpa using h
    subst this
    rfl
  | true =>
    rw [if_pos rfl]
    exact blocks_total (by simpa using h)

theorem happens_total {full sr : Nat} {program : Nat → List (ApiCall P C)} {ks : List (Call S P C)}
    {es : List (List (ChainEvent C))} (h : Happens full sr program ks es) {m n : Nat} (hmn : m ≤ n) (hn : n ≤ ks.length) :
    played program (ks.take m) + ChainEvent.total ((es.take n).drop m).flatten = played program (ks.take n) := by
  induction n with
  | zero => obtain rfl : m = 0 := by omega
            rfl
  | succ n ih =>
    rcases Nat.lt_or_ge m (n + 1) with h1 | h1
    · have hlt : n < ks.length := by omega
      have hlt' : n < es.length := by rw [h.length]; omega
      rw [List.take_succ_eq_append_getElem hlt', List.drop_append_of_le_length (by simp; omega), List.flatten_append,
        total_append, ← Nat.add_assoc, ih (by omega) (by omega), played_take program (List.getElem?_eq_getElem hlt)]
      obtain ⟨bs, b1, b2⟩ := h.call n ks[n] es[n] (List.getElem?_eq_getElem hlt) (List.getElem?_eq_getElem hlt')
      rw [List.flatten_cons, List.flatten_nil, List.append_nil, b1, total_call _ b2]
    · obtain rfl : m = n + 1 := by omega
      rw [List.drop_of_length_le (by simp)]
      rfl

theorem made_done {program : Nat → List (ApiCall P C)} {m n : Nat} (h : m < n) {d : Dsp P} (hd : d ∈ made (program m)) :
    d ∈ made (done program n) := by
  induction n with
  | zero => omega
  | succ n ih =>
    rw [done_succ, upTo_eq, made_append]
    rcases Nat.lt_or_ge m n with h1 | h1
    · exact List.mem_append_left _ (ih h1)
    · obtain rfl : m = n := by omega
      exact List.mem_append_right _ hd

/-- Whenever a node of this identity is made, it is this node. -/
theorem made_same {program : Nat → List (ApiCall P C)} {n : Nat} (hu : ((made (upTo program n)).map Dsp.id).Nodup)
    {m : Nat} (hm : m ≤ n) {d e : Dsp P} (hd : d ∈ made (program m)) (he : e ∈ made (program n)) (hi : d.id = e.id) :
    m = n ∧ d = e := by
  rw [upTo_eq, made_append, List.map_append] at hu
  rcases Nat.lt_or_ge m n with h1 | h1
  · exact absurd hi ((List.nodup_append.mp hu).2.2 _ (List.mem_map_of_mem (made_done h1 hd)) _ (List.mem_map_of_mem he))
  · obtain rfl : m = n := by omega
    exact ⟨rfl, List.inj_on_of_nodup_map (List.nodup_append.mp hu).2.1 hd he hi⟩

/-- The whole session. -/
theorem session_rewiring [AddZeroClass S] {ops : NodeOps S P C} {mf mc sr : Nat} (hm : 0 < mf)
    {program : Nat → List (ApiCall P C)}
    (ha : ∀ n, Allowed (fun h c => h.Typed c ∧ h.Careful mc c) Holding.empty (upTo program n))
    (hu : Unique program) (ks : List (Call S P C)) :
    ∀ E : Processor S P, (∀ n, n < ks.length → started (upTo program n) = true →
      Plain (made (upTo program n)) (holding (upTo program n)).links (input (upTo program n))) →
    (∀ k ∈ ks, k.Valid) → Calls program ks → calls ops (new sr mc mf) ks = .ok E →
    ∃ V es x sig, Looks E mf mc sr V ∧ EInv ops mf mc sr E ∧ Stands mc program ks.length (played program ks) V ∧
      (∀ i d, V.node i = some d → ∃ e ∈ made (done program ks.length), shape e = shape d) ∧
      Happens mf sr program ks es ∧ Changing ops mc sr program ks es x sig ∧
      (∀ m d e, m < ks.length → d ∈ made (program m) → V.node d.id = some e → ∃ y,
        chainRun ops sr [d] (es.drop m).flatten (later (played program (ks.take m)) (x d.id)) = .ok (y, [e]) ∧
        ∀ c f, played program (ks.take m) + f < played program ks →
          y c f = sig d.id c (played program (ks.take m) + f)) ∧
      ∀ i k E1 o E2, ks[i]? = some k → calls ops (new sr mc mf) (ks.take i) = .ok E1 →
        E1.process ops k.env k.commands k.input k.output = .ok (o, E2) →
        ∀ c f, c < k.output.channelCount → f < k.output.frameCount → o.sample? c f =
          some (if started (upTo program i) = true then
            heard (output (upTo program i)) mc sig c (played program (ks.take i) + f) else 0) := by
  induction ks using List.reverseRecOn with
  | nil =>
    intro E _ _ _ h
    injection h with h
    subst h
    refine ⟨_, [], fun _ => silence, fun _ => silence, looks_new .., einv_new .., stands_new mc program,
      (by intro i d h; cases h), ⟨rfl, by simp⟩, ⟨by simp, by simp, by simp⟩, by simp, by simp⟩
  | append_singleton ks k ih =>
    intro E hp hk hc h
    obtain ⟨E1, h1, h2⟩ := (calls_append _ _ _ _).mp h
    obtain ⟨V, es, x, sig, i1, i2, i3, i4, i5, i6, i7, i8⟩ := ih E1 (fun n hn => hp n (by simp; omega))
      (fun l hl => hk l (by simp [hl])) (calls_prefix hc) h1
    obtain ⟨o, E2, h3, h4⟩ := calls_cons h2
    injection h4 with h4
    subst h4
    obtain ⟨W, w1, w2, w3, w4⟩ := process_looks hm i2 i1 (hk k (by simp)) h3
    obtain ⟨bs, Y, b1, b2, b3, b4, b5⟩ := step_rewiring hm (ha ks.length) (hu ks.length) (hp ks.length (by simp)) i3 i4
      (hc ks.length k (by simp)) w1
    have hpl := played_snoc program ks k
    rw [← hpl] at b2
    set F := played program ks with hF
    set N : List (ChainEvent C) := (requests (program ks.length)).map (fun x => .change x.1 x.2) ++
      bs.map fun b => .block b.1 b.2 with hN
    have htN : ChainEvent.total N = if started (upTo program ks.length) = true then k.output.frameCount else 0 :=
      total_call _ b1
    set L := arriving (holding (upTo program ks.length)).links (input (upTo program ks.length))
      (callInput true mc k.input) Y with hL
    -- frames of earlier calls
    have hearly : ∀ m, m ≤ ks.length → (ks ++ [k]).take m = ks.take m := fun m hm => List.take_append_of_le_length hm
    have hlt : ∀ m k', ks[m]? = some k' → started (upTo program m) = true → ∀ f, f < k'.output.frameCount →
        played program (ks.take m) + f < F := by
      intro m k' hk' hs f hf
      have e := played_take program hk'
      rw [if_pos hs] at e
      have h2 := played_mono program ks (m := m + 1) (n := ks.length)
        (by have := (List.getElem?_eq_some_iff.mp hk').1; omega)
      rw [List.take_length, ← hF] at h2
      omega
    have hHap : Happens mf sr program (ks ++ [k]) (es ++ [N]) := by
      refine ⟨by simp [i5.length], ?_⟩
      intro m k' e hk' he
      rcases Nat.lt_trichotomy m ks.length with hm' | hm' | hm'
      · rw [List.getElem?_append_left hm'] at hk'
        rw [List.getElem?_append_left (by rw [i5.length]; exact hm')] at he
        rw [hearly m hm'.le]
        exact i5.call m k' e hk' he
      · subst hm'
        rw [List.getElem?_append_right (le_refl _), Nat.sub_self] at hk'
        injection hk' with hk'
        subst hk'
        rw [List.getElem?_append_right (by rw [i5.length]), i5.length, Nat.sub_self] at he
        injection he with he
        subst he
        rw [hearly _ (le_refl _), List.take_length]
        exact ⟨bs, rfl, b1⟩
      · rw [List.getElem?_eq_none (by simp; omega)] at hk'
        cases hk'
    -- the nodes that are there now
    have hnow : ∀ m d e, m < (ks ++ [k]).length → d ∈ made (program m) → W.node d.id = some e → ∃ y,
        chainRun ops sr [d] ((es ++ [N]).drop m).flatten
          (later (played program ((ks ++ [k]).take m)) (followed F (x d.id) (L d.id))) = .ok (y, [e]) ∧
        ∀ c f, played program ((ks ++ [k]).take m) + f < played program (ks ++ [k]) →
          y c f = followed F (sig d.id) (Y d.id) c (played program ((ks ++ [k]).take m) + f) := by
      intro m d e' hm' hd he
      have hm' : m ≤ ks.length := by simpa using Nat.le_of_lt_succ (by simpa using hm')
      rw [hearly m hm']
      obtain ⟨e, g1, g2, g3⟩ := b3 _ _ he
      have hid : e.id = d.id := (congrArg Prod.fst g2).symm.trans (b2.ids _ _ he)
      by_cases hold : V.node d.id = some e
      · have hml : m < ks.length := by
          rcases Nat.lt_or_ge m ks.length with h | h
          · exact h
          · exfalso
            obtain rfl : m = ks.length := by omega
            obtain ⟨d0, q1, q2⟩ := i4 _ _ hold
            have hnd := hu ks.length
            rw [upTo_eq, made_append, List.map_append] at hnd
            exact (List.nodup_append.mp hnd).2.2 _ (List.mem_map_of_mem q1) _ (List.mem_map_of_mem hd)
              ((congrArg Prod.fst q2).trans hid)
        obtain ⟨y, r1, r2⟩ := i7 m d e hml hd hold
        have htot := happens_total i5 hm' (le_refl _)
        rw [List.take_length, ← hF, show es.take ks.length = es by rw [← i5.length, List.take_length]] at htot
        rw [List.drop_append_of_le_length (by rw [i5.length]; omega), List.flatten_append, List.flatten_cons,
          List.flatten_nil, List.append_nil]
        refine ⟨followed (ChainEvent.total (es.drop m).flatten) y (Y d.id), ?_, ?_⟩
        · rw [chainRun_append, chainRun_congr _ (by simp) (y := later (played program (ks.take m)) (x d.id)), ok_bind r1,
            chainRun_congr _ (by simp) (y := L d.id), ok_bind g3]
          · rfl
          · intro c f hf
            simp only [later, followed]
            rw [if_neg (by omega)]
            congr 1
            omega
          · intro c f hf
            simp only [later, followed]
            rw [if_pos (by omega)]
        · intro c f hf
          simp only [followed]
          by_cases hfF : played program (ks.take m) + f < F
          · rw [if_pos (by omega), if_pos hfF, r2 c f hfF]
          · rw [if_neg (by omega), if_neg hfF]
            congr 1
            omega
      · have hmk : e ∈ made (program ks.length) := g1.resolve_left hold
        obtain ⟨rfl, rfl⟩ := made_same (hu ks.length) hm' hd hmk hid.symm
        rw [List.drop_append_of_le_length (by rw [i5.length]), List.drop_of_length_le (by rw [i5.length]),
          List.nil_append, List.flatten_cons, List.flatten_nil, List.append_nil, List.take_length, ← hF]
        refine ⟨Y d.id, ?_, ?_⟩
        · rw [chainRun_congr _ (by simp) (y := L d.id)]
          · exact g3
          · intro c f _
            simp only [later, followed]
            rw [if_neg (by omega), Nat.add_sub_cancel_left]
        · intro c f _
          simp only [followed]
          rw [if_neg (by omega), Nat.add_sub_cancel_left]
    refine ⟨W, es ++ [N], fun n => followed F (x n) (L n), fun n => followed F (sig n) (Y n), w2, w3, ?_, ?_, hHap,
      ⟨?_, ?_, ?_⟩, hnow, ?_⟩
    · rw [List.length_append]
      exact b2
    · intro i e' he
      obtain ⟨e, g1, g2, g3⟩ := b3 _ _ he
      rw [List.length_append, List.length_singleton, done_succ, upTo_eq, made_append]
      rcases g1 with g1 | g1
      · obtain ⟨d0, q1, q2⟩ := i4 _ _ g1
        exact ⟨d0, List.mem_append_left _ q1, q2.trans g2.symm⟩
      · exact ⟨e, List.mem_append_right _ g1, g2.symm⟩
    · intro m k' hk' hs n c f hf
      rcases Nat.lt_trichotomy m ks.length with hm' | hm' | hm'
      · rw [List.getElem?_append_left hm'] at hk'
        rw [hearly m hm'.le]
        have hl := hlt m k' hk' hs f hf
        simp only [followed]
        rw [if_pos hl, i6.goesIn m k' hk' hs n c f hf]
        refine arriving_congr rfl fun n c => ?_
        simp only [followed]
        rw [if_pos hl]
      · subst hm'
        rw [List.getElem?_append_right (le_refl _), Nat.sub_self] at hk'
        injection hk' with hk'
        subst hk'
        rw [hearly _ (le_refl _), List.take_length, ← hF]
        simp only [followed]
        rw [if_neg (by omega), Nat.add_sub_cancel_left]
        refine arriving_congr ?_ fun n c => ?_
        · simp [callInput]
        · simp only [followed]
          rw [if_neg (by omega), Nat.add_sub_cancel_left]
      · rw [List.getElem?_eq_none (by simp; omega)] at hk'
        cases hk'
    · intro m k' hk' hs n hn c f hf
      rcases Nat.lt_trichotomy m ks.length with hm' | hm' | hm'
      · rw [List.getElem?_append_left hm'] at hk'
        rw [hearly m hm'.le]
        have hl := hlt m k' hk' hs f hf
        simp only [followed]
        rw [if_pos hl]
        exact i6.absent m k' hk' hs n hn c f hf
      · subst hm'
        rw [hearly _ (le_refl _), List.take_length, ← hF]
        simp only [followed]
        rw [if_neg (by omega), b4 n hn]
        rfl
      · rw [List.getElem?_eq_none (by simp; omega)] at hk'
        cases hk'
    · intro m n hmn hn d hd hth
      rcases Nat.lt_or_ge n ks.length with hn' | hn'
      · obtain ⟨y, d', r1, r2⟩ := i6.comesOut m n hmn hn' d hd hth
        have htot := happens_total i5 (show m ≤ n + 1 by omega) (show n + 1 ≤ ks.length by omega)
        have hle := played_mono program ks (show n + 1 ≤ ks.length by omega)
        rw [List.take_length, ← hF] at hle
        rw [hearly m (by omega), hearly (n + 1) (by omega), List.take_append_of_le_length (by rw [i5.length]; omega)]
        refine ⟨y, d', ?_, ?_⟩
        · rw [← r1]
          refine chainRun_congr _ (by simp) fun c f hf => ?_
          simp only [later, followed]
          rw [if_pos (by omega)]
        · intro c f hf
          simp only [followed]
          rw [if_pos (by omega)]
          exact r2 c f hf
      · obtain rfl : n = ks.length := by
          have : n < ks.length + 1 := by simpa using hn
          omega
        obtain ⟨e, he⟩ : ∃ e, W.node d.id = some e := by
          rw [← b2.nodes, b2.agrees.nodes, done_succ, List.mem_map]
          exact hth
        obtain ⟨y, r1, r2⟩ := hnow m d e (by simp; omega) hd he
        refine ⟨y, e, ?_, ?_⟩
        · rw [List.take_of_length_le (l := es ++ [N]) (by simp [i5.length])]
          exact r1
        · intro c f hf
          rw [List.take_of_length_le (i := ks.length + 1) (by simp)] at hf
          exact r2 c f hf
    · intro i k' F1 o' F2 hk' hF1 ho c f hc' hf
      rcases Nat.lt_trichotomy i ks.length with hi | hi | hi
      · rw [List.getElem?_append_left hi] at hk'
        rw [List.take_append_of_le_length hi.le] at hF1 ⊢
        rw [i8 i k' F1 o' F2 hk' hF1 ho c f hc' hf]
        split
        · rename_i hs
          have hl := hlt i k' hk' hs f hf
          unfold heard
          simp only [followed, if_pos hl]
        · rfl
      · subst hi
        rw [List.getElem?_append_right (le_refl _), Nat.sub_self] at hk'
        injection hk' with hk'
        subst hk'
        rw [List.take_append_of_le_length (le_refl _), List.take_length] at hF1 ⊢
        rw [h1] at hF1
        injection hF1 with hF1
        subst hF1
        rw [h3] at ho
        injection ho with ho
        injection ho with ho1 ho2
        subst ho1
        rw [b5 c f hc' hf, ← hF]
        unfold heard
        simp only [followed, if_neg (show ¬ F + f < F by omega), Nat.add_sub_cancel_left]
      · rw [List.getElem?_eq_none (by simp; omega)] at hk'
        cases hk'

/-! ## Determined signals -/

theorem holding_acyclic {mc : Nat} (as : List (ApiCall P C)) : ∀ {h : Holding},
    Allowed (fun h c => h.Typed c ∧ h.Careful mc c) h as → h.Acyclic → (h.afterAll as).Acyclic := by
  induction as with
  | nil => intro h _ ha; exact ha
  | cons c as ih =>
    intro h ha hac
    refine ih ha.2 ?_
    obtain ⟨_, hc⟩ := ha.1
    cases c with
    | connectTo a b => exact hc.2
    | connectChannelsTo a b s d n => exact hc.2.2.2
    | disconnectFromNode a b => exact Holding.acyclic_of_subset (h := h) (fun l hl => (List.mem_filter.mp hl).1) hac
    | _ => exact Holding.acyclic_of_subset (h := h) (fun l hl => hl) hac

theorem there_made {program : Nat → List (ApiCall P C)} {m : Nat} {n : Id} (h : There (upTo program m) n) :
    ∃ m0, m0 ≤ m ∧ ∃ d ∈ made (program m0), d.id = n := by
  obtain ⟨x, hx, rfl⟩ := h
  rcases afterAll_known _ _ x hx with h1 | h1
  · cases h1
  · obtain ⟨d, hd, hdx⟩ := List.mem_map.mp h1
    obtain ⟨c, hc, hcd⟩ := List.mem_filterMap.mp hd
    obtain ⟨m0, hm0, hc⟩ := List.mem_flatMap.mp hc
    exact ⟨m0, by have := List.mem_range.mp hm0; omega, d, List.mem_filterMap.mpr ⟨c, hc, hcd⟩, hdx⟩

theorem history_done {program : Nat → List (ApiCall P C)} {ks : List (Call S P C)} (hc : Calls program ks) :
    history ks = (done program ks.length).map ApiCall.command := by
  induction ks using List.reverseRecOn with
  | nil => rfl
  | append_singleton ks k ih =>
    have hh : history (ks ++ [k]) = history ks ++ k.commands.map Prod.fst := by simp [history]
    rw [hh, ih (calls_prefix hc), hc ks.length k (by simp), List.length_append, List.length_singleton, done_succ, upTo_eq,
      List.map_append]

theorem happens_events {mf sr : Nat} (hm : 0 < mf) {program : Nat → List (ApiCall P C)} {ks : List (Call S P C)}
    {es : List (List (ChainEvent C))} (h : Happens mf sr program ks es) : ∀ e ∈ es.flatten,
    match e with | .change i c => ∃ j, (i, c) ∈ requests (program j) | .block _ n => 0 < n ∧ n ≤ mf := by
  intro e he
  obtain ⟨l, hl, he⟩ := List.mem_flatten.mp he
  obtain ⟨m, hm', rfl⟩ := List.mem_iff_getElem.mp hl
  have hk : m < ks.length := by rw [← h.length]; exact hm'
  obtain ⟨bs, b1, b2⟩ := h.call m ks[m] es[m] (List.getElem?_eq_getElem hk) (List.getElem?_eq_getElem hm')
  rw [b1, List.mem_append] at he
  rcases he with he | he
  · obtain ⟨y, hy, rfl⟩ := List.mem_map.mp he
    exact ⟨m, hy⟩
  · obtain ⟨y, hy, rfl⟩ := List.mem_map.mp he
    split at b2
    · obtain ⟨now, tiles, _, h2, rfl⟩ := b2
      obtain ⟨z, hz, rfl⟩ := List.mem_map.mp hy
      exact (Sampler.tiles_length hm tiles _ _ h2).2.2 z hz
    · subst b2
      cases hy

theorem makes_congr {sr total : Nat} {i : Id} {es : List (ChainEvent MixedRequest)} {x y y' : ℕ → ℕ → ℝ} {k : NodeKind}
    (h : k.Makes sr total i es x y) (hy : ∀ c F, F < total → y c F = y' c F) : k.Makes sr total i es x y' := by
  cases k with
  | effect k => intro hs c F hF; rw [← hy c F hF]; exact h hs c F hF
  | sampler sample fade =>
    obtain ⟨fuel, s, outs, h1, h2⟩ := h
    exact ⟨fuel, s, outs, h1, fun c F hF => by rw [← hy c F hF]; exact h2 c F hF⟩
  | _ => intro c F hF; rw [← hy c F hF]; exact h c F hF

end Network
end Rawdio
