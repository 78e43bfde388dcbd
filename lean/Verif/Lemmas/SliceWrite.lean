import Verif.Lemmas.PoolBuf

/-! Helper lemmas: writing through a mutable slice is writing the shifted part of its parent. -/

namespace Rawdio
namespace Buf

variable {S : Type}

theorem modifyRange_nested (l : List S) (a n : Nat) (hn : n ≤ a) (ha : a ≤ l.length)
    (f : List S → List S) :
    modifyRange l 0 a (fun d => modifyRange d 0 n (fun part => .ok (f part))) =
      modifyRange l 0 n (fun part => .ok (f part)) := by
  have h1 : sliceRange l 0 a = .ok (l.take a) := by
    rw [sliceRange_ok (Nat.zero_le _) ha]; simp
  have h2 : sliceRange l 0 n = .ok (l.take n) := by
    rw [sliceRange_ok (Nat.zero_le _) (by omega)]; simp
  have h3 : sliceRange (l.take a) 0 n = .ok (l.take n) := by
    rw [sliceRange_ok (Nat.zero_le _) (by rw [List.length_take]; omega)]
    simp [List.take_take, hn]
  simp only [modifyRange, h1, h2, h3, bind, Except.bind, pure, Except.pure, List.take_zero,
    List.nil_append]
  congr 1
  rw [List.append_assoc]
  congr 1
  have : List.drop a l = List.drop (a - n) (List.drop n l) := by
    rw [List.drop_drop]; congr 1; omega
  rw [List.drop_take, this, List.take_append_drop]

/-- Changing part of a mutable slice is changing the shifted part of its parent. -/
theorem slice_modifyPart (p : Buf S) (hw : p.WF) (r : Range)
    (hr : r.channel + r.channelCount ≤ p.channelCount) (hr2 : r.frame + r.frameCount ≤ p.frameCount)
    (loc : Loc) (n : Nat) (hc : loc.channel < r.channelCount) (hf : loc.frame + n ≤ r.frameCount)
    (f : List S → List S) :
    (slice p r true).modifyPart loc n f =
      (p.modifyPart ⟨loc.channel + r.channel, loc.frame + r.frame⟩ n f >>=
        fun p' => .ok (slice p' r true)) := by
  unfold modifyPart
  rw [modifyChannel_slice]
  obtain ⟨l, hl, hlen, _⟩ := channelData_spec p hw ⟨loc.channel + r.channel, loc.frame + r.frame⟩
    (by simp only; omega) (by simp only; omega)
  simp only at hlen
  rw [modifyChannel_congr p _ l hl _ (fun data => modifyRange data 0 n (fun part => .ok (f part)))]
  · rfl
  · rw [if_pos (by omega), modifyRange_nested l _ n (by omega) (by omega)]

/-- The same for a loop over channels. -/
theorem slice_region (p : Buf S) (hw : p.WF) (hm : p.Writable) (r : Range)
    (hr : r.channel + r.channelCount ≤ p.channelCount) (hr2 : r.frame + r.frameCount ≤ p.frameCount)
    (n : Nat) (hn : n ≤ r.frameCount) (op : Nat → List S → List S)
    (hlen : ∀ c (l : List S), l.length = n → (op c l).length = n) :
    ∀ N, N ≤ r.channelCount → ∃ p',
      (List.range N).foldlM (fun b c => b.modifyPart ⟨c, 0⟩ n (op c)) (slice p r true) =
        .ok (slice p' r true) ∧
      (List.range N).foldlM (fun b c => b.modifyPart ⟨r.channel + c, r.frame⟩ n (op c)) p = .ok p' ∧
      p.SameShape p' ∧ p'.WF ∧ p'.Writable := by
  intro N
  induction N with
  | zero => intro _; exact ⟨p, rfl, rfl, SameShape.refl _, hw, hm⟩
  | succ N ih =>
    intro hN
    obtain ⟨p1, e1, e2, hsh, hw1, hm1⟩ := ih (by omega)
    have hcc := hsh.channelCount
    have hfc := hsh.frameCount
    obtain ⟨_, _, _, p2, e3, hsh2, hw2, hm2, _⟩ := modifyPart_spec p1 hw1 hm1
      ⟨r.channel + N, r.frame⟩ (by simp only; omega) n (by simp only; omega) (op N) (hlen N)
    refine ⟨p2, ?_, ?_, hsh.trans hsh2, hw2, hm2⟩
    · rw [List.range_succ, List.foldlM_append, e1]
      simp only [List.foldlM_cons, List.foldlM_nil, bind_pure]
      change (slice p1 r true).modifyPart ⟨N, 0⟩ n (op N) = _
      rw [slice_modifyPart p1 hw1 r (by omega) (by omega) ⟨N, 0⟩ n (by simp only; omega)
        (by simp only; omega)]
      simp only [Nat.zero_add, Nat.add_comm N r.channel, e3]
      rfl
    · rw [List.range_succ, List.foldlM_append, e2]
      simp only [List.foldlM_cons, List.foldlM_nil, bind_pure]
      exact e3

theorem SameShape.writeAll_step {b b' : Buf S} (h : b.SameShape b') (g : Nat → Nat → S) (c : Nat) :
    b'.modifyPart ⟨c, 0⟩ b'.frameCount (fun _ => (List.range b'.frameCount).map (g c)) =
      b'.modifyPart ⟨c, 0⟩ b.frameCount (fun _ => (List.range b.frameCount).map (g c)) := by
  rw [h.frameCount]

/-- Writing a slice of the first channels and frames of a buffer changes exactly those samples. -/
theorem writeAll_slice (p : Buf S) (hw : p.WF) (hm : p.Writable) (N n : Nat)
    (hN : N ≤ p.channelCount) (hn : n ≤ p.frameCount) (g : Nat → Nat → S) :
    ∃ p', (slice p ⟨0, 0, N, n⟩ true).writeAll g = .ok (slice p' ⟨0, 0, N, n⟩ true) ∧
      p.SameShape p' ∧ p'.WF ∧ p'.Writable ∧
      ∀ c f, p'.sample? c f = if c < N ∧ f < n then some (g c f) else p.sample? c f := by
  obtain ⟨p', e1, e2, hsh, hw', hm'⟩ := slice_region p hw hm ⟨0, 0, N, n⟩ (by simp only; omega)
    (by simp only; omega) n le_rfl (fun c _ => (List.range n).map (g c)) (by simp) N le_rfl
  obtain ⟨p2, e3, _, _, _, hs⟩ := region_spec p hw hm ⟨0, 0⟩ N n (by simp only; omega)
    (by simp only; omega)
    (fun b c => b.modifyPart ⟨0 + c, 0⟩ n ((fun c _ => (List.range n).map (g c)) c))
    (fun c _ => (List.range n).map (g c)) (fun c i _ => some (g c i)) (fun _ _ _ _ => rfl)
    (by simp) (by
      intro c _ l _ i hi
      rw [List.getElem?_map, List.getElem?_range hi]; rfl)
  have : p2 = p' := by
    have := e3.symm.trans e2
    injection this
  subst this
  refine ⟨p2, ?_, hsh, hw', hm', ?_⟩
  · rw [← e1, writeAll]
    change (List.range N).foldlM _ _ = _
    have key : ∀ (M : Nat) (b : Buf S), M ≤ N → (slice p ⟨0, 0, N, n⟩ true).SameShape b →
        (List.range M).foldlM (fun b c => b.modifyPart ⟨c, 0⟩ b.frameCount
          (fun _ => (List.range b.frameCount).map (g c))) (slice p ⟨0, 0, N, n⟩ true) =
        (List.range M).foldlM (fun b c => b.modifyPart ⟨c, 0⟩ n
          (fun _ => (List.range n).map (g c))) (slice p ⟨0, 0, N, n⟩ true) := by
      intro M
      induction M with
      | zero => intro b _ _; rfl
      | succ M ih =>
        intro b hM hb
        rw [List.range_succ, List.foldlM_append, List.foldlM_append, ih b (by omega) hb]
        obtain ⟨q, q1, _, q2, _, _⟩ := slice_region p hw hm ⟨0, 0, N, n⟩ (by simp only; omega)
          (by simp only; omega) n le_rfl (fun c _ => (List.range n).map (g c)) (by simp) M
          (by simp only; omega)
        rw [q1]
        rfl
    exact key N _ le_rfl (SameShape.refl _)
  · intro c f
    rw [hs]
    simp only [Nat.zero_le, true_and, Nat.zero_add, Nat.sub_zero]

/-- Copying into a mutable slice is copying into the shifted part of its parent. -/
theorem slice_copyFrom (p : Buf S) (hw : p.WF) (hm : p.Writable) (r : Range)
    (hr : r.channel + r.channelCount ≤ p.channelCount) (hr2 : r.frame + r.frameCount ≤ p.frameCount)
    (src : Buf S) (hs : src.WF) (n : Nat) (hn : n ≤ r.frameCount) (hn2 : n ≤ src.frameCount) :
    ∀ N, N ≤ r.channelCount → N ≤ src.channelCount → ∃ p',
      (slice p r true).copyFrom src Loc.origin Loc.origin N n = .ok (slice p' r true) ∧
      p.copyFrom src Loc.origin ⟨r.channel, r.frame⟩ N n = .ok p' ∧
      p.SameShape p' ∧ p'.WF ∧ p'.Writable := by
  intro N
  unfold copyFrom
  induction N with
  | zero => intro _ _; exact ⟨p, rfl, rfl, SameShape.refl _, hw, hm⟩
  | succ N ih =>
    intro hN hN2
    obtain ⟨p1, e1, e2, hsh, hw1, hm1⟩ := ih (by omega) (by omega)
    have hcc := hsh.channelCount
    have hfc := hsh.frameCount
    obtain ⟨l, l', r1, r2, hlen, _⟩ := readPart_spec src hs ⟨0 + N, 0⟩ (by simp only; omega) n
      (by simp only; omega)
    obtain ⟨_, _, _, p2, e3, hsh2, hw2, hm2, _⟩ := modifyPart_spec p1 hw1 hm1
      ⟨r.channel + N, r.frame⟩ (by simp only; omega) n (by simp only; omega) (fun _ => l')
      (fun _ _ => hlen)
    refine ⟨p2, ?_, ?_, hsh.trans hsh2, hw2, hm2⟩
    · rw [List.range_succ, List.foldlM_append, e1]
      simp only [List.foldlM_cons, List.foldlM_nil, bind_pure]
      refine (ok_bind r1).trans ((ok_bind r2).trans ?_)
      change (slice p1 r true).modifyPart ⟨0 + N, 0⟩ n (fun _ => l') = _
      rw [slice_modifyPart p1 hw1 r (by omega) (by omega) ⟨0 + N, 0⟩ n (by simp only; omega)
        (by simp only; omega)]
      simp only [Nat.zero_add, Nat.add_comm N r.channel, e3]
      rfl
    · rw [List.range_succ, List.foldlM_append, e2]
      simp only [List.foldlM_cons, List.foldlM_nil, bind_pure]
      exact (ok_bind r1).trans ((ok_bind r2).trans e3)

/-- What is left of the parent of a slice after the slice has been written: everything outside the
slice is as before. -/
def KeepsRest (b b' : Buf S) : Prop :=
  ∀ p r m, b = slice p r m → ∀ c f,
    ¬ (r.channel ≤ c ∧ c < r.channel + r.channelCount ∧ r.frame ≤ f ∧ f < r.frame + r.frameCount) →
    b'.parent.sample? c f = p.sample? c f

theorem KeepsRest.refl (b : Buf S) : KeepsRest b b := by
  intro p r m h c f _
  subst h
  rfl

theorem copyFrom_keepsRest (b : Buf S) (hw : b.WF) (hm : b.Writable) (src : Buf S) (hs : src.WF)
    (N n : Nat) (h1 : N ≤ src.channelCount) (h2 : n ≤ src.frameCount) (h3 : N ≤ b.channelCount)
    (h4 : n ≤ b.frameCount) {b' : Buf S}
    (h : b.copyFrom src Loc.origin Loc.origin N n = .ok b') : KeepsRest b b' := by
  intro p r m hb c f hout
  subst hb
  obtain ⟨hm1, hm2⟩ := hm
  subst hm1
  obtain ⟨hw1, hw2, hw3⟩ := hw
  obtain ⟨p', e1, e2, _⟩ := slice_copyFrom p hw1 hm2 r hw2 hw3 src hs n h4 h2 N h3 h1
  rw [e1] at h
  injection h with h
  subst h
  obtain ⟨p2, e3, _, _, _, hsm⟩ := copyFrom_spec p src hw1 hm2 hs Loc.origin ⟨r.channel, r.frame⟩ N n
    (by simpa [Loc.origin] using h1) (by simpa [Loc.origin] using h2)
    (by have : N ≤ r.channelCount := h3; simp only; omega)
    (by have : n ≤ r.frameCount := h4; simp only; omega)
  rw [e2] at e3
  injection e3 with e3
  subst e3
  change p'.sample? c f = _
  rw [hsm]
  have a1 : N ≤ r.channelCount := h3
  have a2 : n ≤ r.frameCount := h4
  rw [if_neg]
  simp only
  omega

/-- The samples shown to a node. -/
theorem view_eq (b : Buf S) (hw : b.WF) : b.view = b.sample? := by
  funext c f
  unfold view
  split_ifs with h
  · obtain ⟨v, h1, h2⟩ := getSample_eq b hw c f h.1 h.2
    rw [h1, h2]; rfl
  · exact (sample?_eq_none b c f h).symm

end Buf
end Rawdio
