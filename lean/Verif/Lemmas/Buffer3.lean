import Mathlib.Algebra.GroupWithZero.Defs
import Verif.Lemmas.Buffer2

/-! Helper lemmas about interleaving, duplication and gain. -/

namespace Rawdio
namespace Buf

variable {S : Type}

theorem index_ok {l : List S} {i : Nat} (h : i < l.length) : index l i = .ok l[i] := by
  simp [index, List.getElem?_eq_getElem h]

theorem assign_ok {l : List S} {i : Nat} (x : S) (h : i < l.length) : assign l i x = .ok (l.set i x) := by
  simp [assign, h]

theorem fillLoop_spec (inter data : List S) (k c n : Nat) (hn : n ≤ data.length)
    (hi : ∀ f, f < n → f * k + c < inter.length) :
    ∃ d', (List.range n).foldlM (fun (data : List S) f => do
          let v ← index inter (f * k + c)
          assign data f v) data = .ok d' ∧ d'.length = data.length ∧
      ∀ f, d'[f]? = if f < n then inter[f * k + c]? else data[f]? := by
  induction n with
  | zero => exact ⟨data, rfl, rfl, fun f => by simp⟩
  | succ n ih =>
    obtain ⟨d1, h1, hl1, hg1⟩ := ih (by omega) (fun f hf => hi f (by omega))
    have hin := hi n (by omega)
    refine ⟨d1.set n (inter[n * k + c]), ?_, by simp [hl1], ?_⟩
    · rw [List.range_succ, List.foldlM_append, h1]
      simp only [List.foldlM_cons, List.foldlM_nil, bind, Except.bind, index_ok hin,
        assign_ok _ (show n < d1.length by omega)]
      rfl
    · intro f
      rw [List.getElem?_set]
      by_cases hfn : n = f
      · subst hfn
        rw [if_pos rfl, if_pos (by omega), if_pos (by omega), List.getElem?_eq_getElem hin]
      · rw [if_neg hfn, hg1]
        by_cases h : f < n
        · rw [if_pos h, if_pos (by omega)]
        · rw [if_neg h, if_neg (by omega)]

theorem strided_inj {cc c f c' f' : Nat} (hc : c < cc) (hc' : c' < cc) :
    f * cc + c = f' * cc + c' ↔ f = f' ∧ c = c' := by
  constructor
  · intro h
    have h1 : (f * cc + c) / cc = (f' * cc + c') / cc := by rw [h]
    have h2 : (f * cc + c) % cc = (f' * cc + c') % cc := by rw [h]
    rw [Nat.mul_comm f, Nat.mul_comm f', Nat.mul_add_mod, Nat.mul_add_mod, Nat.mod_eq_of_lt hc,
      Nat.mod_eq_of_lt hc'] at h2
    rw [Nat.mul_comm f, Nat.mul_comm f', Nat.mul_add_div (by omega), Nat.mul_add_div (by omega),
      Nat.div_eq_of_lt hc, Nat.div_eq_of_lt hc'] at h1
    exact ⟨by omega, h2⟩
  · rintro ⟨rfl, rfl⟩; rfl

theorem strided_div {cc c f : Nat} (hc : c < cc) : (f * cc + c) / cc = f := by
  rw [Nat.mul_comm, Nat.mul_add_div (by omega), Nat.div_eq_of_lt hc]; rfl

theorem strided_mod {cc c f : Nat} (hc : c < cc) : (f * cc + c) % cc = c := by
  rw [Nat.mul_comm, Nat.mul_add_mod, Nat.mod_eq_of_lt hc]

theorem strided_lt {cc c f fc : Nat} (hc : c < cc) (hf : f < fc) : f * cc + c < cc * fc := by
  have := Nat.mul_le_mul_left cc (show f + 1 ≤ fc from hf)
  rw [Nat.mul_succ] at this
  rw [Nat.mul_comm f]; omega

theorem copyToLoop_spec (data out : List S) (cc c n : Nat) (hc : c < cc) (hn : n ≤ data.length)
    (ho : ∀ f, f < n → f * cc + c < out.length) :
    ∃ o', (List.range n).foldlM (fun (out : List S) f => do
          let v ← index data f
          assign out (f * cc + c) v) out = .ok o' ∧ o'.length = out.length ∧
      ∀ j, o'[j]? = if j % cc = c ∧ j / cc < n then data[j / cc]? else out[j]? := by
  induction n with
  | zero => exact ⟨out, rfl, rfl, fun f => by simp⟩
  | succ n ih =>
    obtain ⟨o1, h1, hl1, hg1⟩ := ih (by omega) (fun f hf => ho f (by omega))
    have hin := ho n (by omega)
    refine ⟨o1.set (n * cc + c) (data[n]), ?_, by simp [hl1], ?_⟩
    · rw [List.range_succ, List.foldlM_append, h1]
      simp only [List.foldlM_cons, List.foldlM_nil, bind, Except.bind,
        index_ok (show n < data.length by omega),
        assign_ok _ (show n * cc + c < o1.length by omega)]
      rfl
    · intro j
      rw [List.getElem?_set]
      by_cases hj : n * cc + c = j
      · subst hj
        rw [if_pos rfl, if_pos (by omega), strided_mod hc, strided_div hc, if_pos ⟨rfl, by omega⟩,
          List.getElem?_eq_getElem]
      · rw [if_neg hj, hg1]
        have hne : ¬ (j % cc = c ∧ j / cc = n) := by
          rintro ⟨rfl, rfl⟩
          apply hj
          rw [Nat.mul_comm]; exact Nat.div_add_mod j cc
        by_cases h : j % cc = c ∧ j / cc < n
        · rw [if_pos h, if_pos ⟨h.1, by omega⟩]
        · rw [if_neg h, if_neg (by omega)]

theorem fillFromInterleaved_spec (b : Buf S) (hw : b.WF) (hm : b.Writable) (inter : List S)
    (cc fc : Nat) (hcc : cc ≤ b.channelCount)
    (hlen : cc * min fc b.frameCount ≤ inter.length) :
    ∃ b', b.fillFromInterleaved inter cc fc = .ok b' ∧ b.SameShape b' ∧ b'.WF ∧ b'.Writable ∧
      ∀ c f, b'.sample? c f =
        if c < cc ∧ f < min fc b.frameCount then inter[f * cc + c]? else b.sample? c f := by
  have hmin : min cc b.channelCount = cc := Nat.min_eq_left hcc
  unfold fillFromInterleaved
  simp only [hmin]
  generalize hn : min fc b.frameCount = n at *
  have hnf : n ≤ b.frameCount := by omega
  clear hn hmin
  -- induction on the number of channels already done
  have key : ∀ N, N ≤ cc → ∃ b', (List.range N).foldlM
      (fun (b : Buf S) c => b.modifyChannel (Loc.ofChannel c) (fun data =>
        (List.range n).foldlM
          (fun data f => do
            let v ← index inter (f * cc + c)
            assign data f v) data)) b = .ok b' ∧ b.SameShape b' ∧ b'.WF ∧ b'.Writable ∧
      ∀ c f, b'.sample? c f =
        if c < N ∧ f < n then inter[f * cc + c]? else b.sample? c f := by
    intro N
    induction N with
    | zero => intro _; exact ⟨b, rfl, SameShape.refl _, hw, hm, fun c f => by simp⟩
    | succ N ih =>
      intro hN
      obtain ⟨b1, h1, hsh, hw1, hm1, hs1⟩ := ih (by omega)
      obtain ⟨l, hl, hll, hget⟩ := channelData_spec b1 hw1 (Loc.ofChannel N)
        (by rw [← hsh.channelCount]; simp only [Loc.ofChannel]; omega)
        (by simp [Loc.ofChannel])
      obtain ⟨l', hl', hll', hget'⟩ := fillLoop_spec inter l cc N n
        (by rw [hll, ← hsh.frameCount]; simp only [Loc.ofChannel]; omega)
        (fun f hf => lt_of_lt_of_le (strided_lt (by omega) hf) hlen)
      obtain ⟨b2, h2, hsh2, hw2, hm2, hs2⟩ := modifyChannel_spec b1 hw1 hm1 (Loc.ofChannel N)
        (by rw [← hsh.channelCount]; simp only [Loc.ofChannel]; omega)
        (by simp [Loc.ofChannel]) (fun data =>
          (List.range n).foldlM (fun (data : List S) f => do
            let v ← index inter (f * cc + N)
            assign data f v) data) l l' hl hl' hll'
      refine ⟨b2, ?_, hsh.trans hsh2, hw2, hm2, ?_⟩
      · rw [List.range_succ, List.foldlM_append, h1]
        simp only [List.foldlM_cons, List.foldlM_nil, bind, Except.bind]
        simp only [bind, Except.bind] at h2
        rw [h2]; rfl
      · intro c f
        rw [hs2]
        simp only [Loc.ofChannel, Nat.zero_le, true_and, Nat.sub_zero] at hget ⊢
        by_cases hc : c = N
        · subst hc
          by_cases hf : f < b1.frameCount
          · rw [if_pos ⟨rfl, hf⟩, hget']
            by_cases hfn : f < n
            · rw [if_pos hfn, if_pos ⟨by omega, hfn⟩]
            · rw [if_neg hfn, if_neg (by omega), hget, hs1, if_neg (by omega)]
              simp
          · rw [if_neg (by omega), hs1, if_neg (by omega), if_neg]
            rw [← hsh.frameCount] at hf; omega
        · rw [if_neg (by omega), hs1]
          by_cases h : c < N ∧ f < n
          · rw [if_pos h, if_pos (by omega)]
          · rw [if_neg h, if_neg (by omega)]
  exact key cc le_rfl

theorem copyToInterleaved_spec (b : Buf S) (hw : b.WF) (out : List S)
    (cc fc : Nat) (hcc : cc ≤ b.channelCount)
    (hlen : cc * min fc b.frameCount ≤ out.length) :
    ∃ o', b.copyToInterleaved out cc fc = .ok o' ∧ o'.length = out.length ∧
      ∀ j, o'[j]? =
        if 0 < cc ∧ j / cc < min fc b.frameCount then b.sample? (j % cc) (j / cc) else out[j]? := by
  have hmin : min cc b.channelCount = cc := Nat.min_eq_left hcc
  unfold copyToInterleaved
  simp only [hmin]
  generalize hn : min fc b.frameCount = n at *
  have hnf : n ≤ b.frameCount := by omega
  clear hn hmin
  have key : ∀ N, N ≤ cc → ∃ o', (List.range N).foldlM
      (fun (out : List S) c => do
        let data ← b.channelData (Loc.ofChannel c)
        (List.range n).foldlM
          (fun out f => do
            let v ← index data f
            assign out (f * cc + c) v) out) out = .ok o' ∧ o'.length = out.length ∧
      ∀ j, o'[j]? =
        if j % cc < N ∧ j / cc < n then b.sample? (j % cc) (j / cc) else out[j]? := by
    intro N
    induction N with
    | zero => intro _; exact ⟨out, rfl, rfl, fun j => by simp⟩
    | succ N ih =>
      intro hN
      obtain ⟨o1, h1, hl1, hg1⟩ := ih (by omega)
      obtain ⟨l, hl, hll, hget⟩ := channelData_spec b hw (Loc.ofChannel N)
        (by simp only [Loc.ofChannel]; omega)
        (by simp [Loc.ofChannel])
      simp only [Loc.ofChannel] at hget
      obtain ⟨o2, h2, hl2, hg2⟩ := copyToLoop_spec l o1 cc N n (by omega)
        (by rw [hll]; simp only [Loc.ofChannel]; omega)
        (fun f hf => by rw [hl1]; exact lt_of_lt_of_le (strided_lt (by omega) hf) hlen)
      refine ⟨o2, ?_, by omega, ?_⟩
      · rw [List.range_succ, List.foldlM_append, h1]
        simp only [List.foldlM_cons, List.foldlM_nil, bind, Except.bind, hl]
        simp only [bind, Except.bind] at h2
        rw [h2]; rfl
      · intro j
        rw [hg2]
        by_cases h : j % cc = N ∧ j / cc < n
        · rw [if_pos h, if_pos (by omega), hget, h.1]
          simp
        · rw [if_neg h, hg1]
          by_cases h' : j % cc < N ∧ j / cc < n
          · rw [if_pos h', if_pos (by omega)]
          · rw [if_neg h', if_neg (by omega)]
  obtain ⟨o', h1, h2, h3⟩ := key cc le_rfl
  refine ⟨o', h1, h2, fun j => ?_⟩
  rw [h3]
  by_cases hcz : 0 < cc
  · have := Nat.mod_lt j hcz
    by_cases h : j / cc < n
    · rw [if_pos ⟨this, h⟩, if_pos ⟨hcz, h⟩]
    · rw [if_neg (by omega), if_neg (by omega)]
  · rw [if_neg (by omega), if_neg (by omega)]

theorem copyWithinList_ok {l : List S} {a n d : Nat} (h1 : a + n ≤ l.length)
    (h2 : d + n ≤ l.length) :
    ∃ l', copyWithinList l a n d = .ok l' ∧ l'.length = l.length ∧
      ∀ j, l'[j]? = if d ≤ j ∧ j < d + n then l[a + (j - d)]? else l[j]? := by
  refine ⟨_, by simp only [copyWithinList, h1, h2, and_self, if_true]; rfl, ?_, ?_⟩
  · simp only [List.length_append, List.length_take, List.length_drop]; omega
  · intro j
    rw [splice_get? (a := d) (b := d + n) (by omega) h2
      (by simp only [List.length_take, List.length_drop]; omega)]
    by_cases hj : j < d
    · rw [if_pos hj, if_neg (by omega)]
    · rw [if_neg hj]
      by_cases hj2 : j < d + n
      · rw [if_pos hj2, if_pos (by omega), List.getElem?_take, if_pos (by omega),
          List.getElem?_drop]
      · rw [if_neg hj2, if_neg (by omega)]

theorem duplicateChannel_spec (b : Buf S) (hw : b.WF) (hm : b.Writable) (src : Loc) (dst n : Nat)
    (h1 : src.channel < b.channelCount) (h2 : dst < b.channelCount)
    (h3 : src.frame + n ≤ b.frameCount) :
    ∃ b', b.duplicateChannel src dst n = .ok b' ∧ b.SameShape b' ∧ b'.WF ∧ b'.Writable ∧
      ∀ c f, b'.sample? c f =
        if c = dst ∧ src.frame ≤ f ∧ f < src.frame + n then b.sample? src.channel f
        else b.sample? c f := by
  induction b generalizing src dst with
  | owned data cc fc sr =>
    simp only [cc_owned, fc_owned, WF] at *
    have e1 := index_lt (f := src.frame + n) h1 h3
    have e2 := index_lt (f := src.frame + n) h2 h3
    obtain ⟨l', hl', hlen, hget⟩ := copyWithinList_ok (l := data) (a := src.channel * fc + src.frame)
      (n := n) (d := dst * fc + src.frame) (by omega) (by omega)
    refine ⟨owned l' cc fc sr, ?_, ⟨rfl, rfl, rfl⟩, by simp only [WF]; omega, trivial, ?_⟩
    · simp only [duplicateChannel, hl', bind, Except.bind, pure, Except.pure]
    · intro c f
      simp only [sample?]
      by_cases hcf : c < cc ∧ f < fc
      · simp only [hcf, and_self, if_true, hget, h1]
        by_cases hc : c = dst
        · subst hc
          by_cases hff : src.frame ≤ f ∧ f < src.frame + n
          · rw [if_pos (by omega), if_pos (by omega)]
            congr 1; omega
          · rw [if_neg (by omega), if_neg (by omega)]
        · simp only [hc, false_and, if_false]
          rw [if_neg]
          intro h
          rcases Nat.lt_or_gt_of_ne hc with hlt | hgt
          · have := Nat.mul_le_mul_right fc (show c + 1 ≤ dst from hlt)
            rw [Nat.succ_mul] at this; omega
          · have := Nat.mul_le_mul_right fc (show dst + 1 ≤ c from hgt)
            rw [Nat.succ_mul] at this; omega
      · simp only [hcf, if_false]
        by_cases hx : c = dst ∧ src.frame ≤ f ∧ f < src.frame + n
        · exfalso; apply hcf; omega
        · rw [if_neg hx]
  | slice p r m ih =>
    simp only [cc_slice, fc_slice, WF, Writable] at *
    obtain ⟨rfl, hpm⟩ := hm
    obtain ⟨p', hp', hsh, hwf, hwr, hget⟩ := ih hw.1 hpm
      ⟨src.channel + r.channel, src.frame + r.frame⟩ (dst + r.channel)
      (by simp only; omega) (by omega) (by simp only; omega)
    refine ⟨slice p' r true, ?_, ⟨hsh, rfl, rfl⟩,
      ⟨hwf, by rw [← hsh.channelCount]; exact hw.2.1, by rw [← hsh.frameCount]; exact hw.2.2⟩,
      ⟨rfl, hwr⟩, ?_⟩
    · simp only [duplicateChannel, Loc.offsetChannels, Loc.offsetFrames, hp', bind, Except.bind,
        pure, Except.pure]
    · intro c f
      simp only [sample?]
      by_cases hcf : c < r.channelCount ∧ f < r.frameCount
      · simp only [hcf, and_self, if_true, hget]
        by_cases hc : c = dst ∧ src.frame ≤ f ∧ f < src.frame + n
        · rw [if_pos (by omega), if_pos hc, if_pos ⟨h1, trivial⟩]
        · rw [if_neg (by omega), if_neg hc]
      · simp only [hcf, if_false]
        by_cases hx : c = dst ∧ src.frame ≤ f ∧ f < src.frame + n
        · exfalso; apply hcf; omega
        · rw [if_neg hx]

end Buf
end Rawdio
