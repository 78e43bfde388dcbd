import Verif.Model.Grid
import Verif.Lemmas.SliceWrite
import Verif.Props.Buffers

/-!
# Grids are what buffers show

The models of the nodes read and write `Grid`s.  Here the grid operations are shown to be what the buffer
operations do: when an operation on a grid succeeds, the operation on any buffer that shows that grid
succeeds, through the slice of the same window, and leaves a buffer that shows the resulting grid.
-/

namespace Rawdio
namespace Grid

variable {S : Type}

/-- The buffer `b` can be written and its samples are those of the grid `g`. -/
structure Shows (g : Grid S) (b : Buf S) : Prop where
  wf : b.WF
  writable : b.Writable
  channels : b.channelCount = g.channels
  frames : b.frameCount = g.frames
  val : ∀ c f, c < g.channels → f < g.frames → b.sample? c f = some (g.val c f)

/-- The range of a slice of frames, `mutable_borrowed_audio_buffer.rs:12-22`. -/
def rangeOf (g : Grid S) (w : Window) : Range := ⟨0, w.offset, g.channels, w.count⟩

/-- Slicing the frames of a window. -/
theorem Shows.slice {g : Grid S} {b : Buf S} (h : g.Shows b) (w : Window)
    (hw : w.offset + w.count ≤ g.frames) :
    b.sliceFrames w.offset w.count true = .ok (Buf.slice b (g.rangeOf w) true) := by
  have h1 := h.channels
  have h2 := h.frames
  unfold Buf.sliceFrames Buf.mkSlice
  rw [h1]
  have : b.rangeIsValid ⟨0, w.offset, g.channels, w.count⟩ = true := by
    simp only [Buf.rangeIsValid]
    simp
    omega
  rw [this]
  rfl

theorem Shows.slice_wf {g : Grid S} {b : Buf S} (h : g.Shows b) (w : Window)
    (hw : w.offset + w.count ≤ g.frames) : (Buf.slice b (g.rangeOf w) true).WF := by
  have h1 := h.channels
  have h2 := h.frames
  refine ⟨h.wf, ?_, ?_⟩ <;> simp only [rangeOf] <;> omega

/-- `get_sample` through a slice of frames. -/
theorem Shows.get {g : Grid S} {b : Buf S} (h : g.Shows b) (w : Window)
    (hw : w.offset + w.count ≤ g.frames) {c f : Nat} {v : S} (hg : g.get w c f = .ok v) :
    (Buf.slice b (g.rangeOf w) true).getSample ⟨c, f⟩ = .ok v := by
  unfold Grid.get at hg
  split at hg
  · rename_i hin
    injection hg with hg
    obtain ⟨u, hu, hu2⟩ := Buf.getSample_eq _ (h.slice_wf w hw) c f (by simpa [Buf.channelCount, rangeOf]
      using hin.1) (by simpa [Buf.frameCount, rangeOf] using hin.2.1)
    rw [hu2]
    have hs : (Buf.slice b (g.rangeOf w) true).sample? c f = b.sample? (c + 0) (f + w.offset) :=
      if_pos (And.intro hin.1 hin.2.1)
    rw [hs, Nat.add_zero, Nat.add_comm f, h.val c _ hin.1 hin.2.2] at hu
    injection hu with hu
    rw [← hu, hg]
  · cases hg

/-- `set_sample` through a slice of frames. -/
theorem Shows.set {g g' : Grid S} {b : Buf S} (h : g.Shows b) (w : Window)
    (hw : w.offset + w.count ≤ g.frames) {c f : Nat} {v : S} (hg : g.set w c f v = .ok g') :
    ∃ b', (Buf.slice b (g.rangeOf w) true).setSample ⟨c, f⟩ v = .ok (Buf.slice b' (g.rangeOf w) true) ∧
      g'.Shows b' := by
  unfold Grid.set at hg
  split at hg
  · rename_i hin
    injection hg with hg
    subst hg
    have h1 := h.channels
    have h2 := h.frames
    obtain ⟨p', e1, -, -⟩ := Buf.C29_write_through_slice b h.wf h.writable (g.rangeOf w)
      (by simp only [rangeOf]; omega) (by simp only [rangeOf]; omega) c f
      (by simpa [rangeOf] using hin.1) (by simpa [rangeOf] using hin.2.1) v
    refine ⟨p', e1, ?_⟩
    obtain ⟨q, e2, hsh, hwf, hwr, hv, hrest⟩ := Buf.C29_write_one_sample
      (Buf.slice b (g.rangeOf w) true) (h.slice_wf w hw) ⟨rfl, h.writable⟩ c f hin.1 hin.2.1 v
    rw [e1] at e2
    injection e2 with e2
    subst e2
    obtain ⟨hsh1, -, -⟩ := hsh
    have w' : p'.WF := hwf.1
    obtain ⟨p2, e3, f1, f2⟩ := Buf.C29_write_through_slice b h.wf h.writable (g.rangeOf w)
      (by simp only [rangeOf]; omega) (by simp only [rangeOf]; omega) c f
      (by simpa [rangeOf] using hin.1) (by simpa [rangeOf] using hin.2.1) v
    rw [e1] at e3
    injection e3 with e3
    injection e3 with e3
    subst e3
    refine ⟨w', hwr.2, by rw [← hsh1.channelCount]; exact h1, by rw [← hsh1.frameCount]; exact h2, ?_⟩
    intro c' f' hc' hf'
    simp only at hc' hf'
    obtain ⟨u, hu, hu2⟩ := Buf.getSample_eq p' w' c' f' (by rw [← hsh1.channelCount, h1]; exact hc')
      (by rw [← hsh1.frameCount, h2]; exact hf')
    rw [hu]
    by_cases he : c' = c ∧ f' = w.offset + f
    · obtain ⟨rfl, rfl⟩ := he
      simp only [and_self, if_true]
      simp only [rangeOf, Nat.add_zero] at f1
      rw [Nat.add_comm] at f1
      rw [f1] at hu2
      injection hu2 with hu2
      rw [hu2]
    · simp only [if_neg he]
      rw [f2 c' f' (by omega) (by omega) (by
        intro hq
        simp only [rangeOf, Prod.mk.injEq] at hq
        exact he ⟨by omega, by omega⟩)] at hu2
      obtain ⟨u', hu', hu2'⟩ := Buf.getSample_eq b h.wf c' f' (by omega) (by omega)
      rw [hu2'] at hu2
      injection hu2 with hu2
      rw [h.val c' f' hc' hf'] at hu'
      injection hu' with hu'
      rw [← hu2, hu']
  · cases hg

/-- Adding into a mutable slice is adding into the shifted part of its parent. -/
theorem slice_addFrom [Add S] (al : Nat → Nat × Nat) (p : Buf S) (hw : p.WF) (hm : p.Writable) (r : Range)
    (hr : r.channel + r.channelCount ≤ p.channelCount) (hr2 : r.frame + r.frameCount ≤ p.frameCount)
    (src : Buf S) (hs : src.WF) (sf df n : Nat) (hn : df + n ≤ r.frameCount)
    (hn2 : sf + n ≤ src.frameCount) (N : Nat) (hN : N ≤ r.channelCount) (hN2 : N ≤ src.channelCount) :
    ∃ p', (Buf.slice p r true).addFrom al src ⟨0, sf⟩ ⟨0, df⟩ N n = .ok (Buf.slice p' r true) ∧
      p.addFrom al src ⟨0, sf⟩ ⟨r.channel, df + r.frame⟩ N n = .ok p' := by
  unfold Buf.addFrom
  by_cases h0 : n = 0
  · exact ⟨p, by rw [if_pos h0], by rw [if_pos h0]⟩
  · by_cases h1 : N = 0
    · exact ⟨p, by rw [if_neg h0, if_pos h1], by rw [if_neg h0, if_pos h1]⟩
    · rw [if_neg h0, if_neg h1, if_neg h0, if_neg h1]
      clear h1
      suffices H : ∃ p', _ = Except.ok (Buf.slice p' r true) ∧ _ = Except.ok p' ∧ p.SameShape p' ∧
          p'.WF ∧ p'.Writable from ⟨H.choose, H.choose_spec.1, H.choose_spec.2.1⟩
      induction N with
      | zero => exact ⟨p, rfl, rfl, Buf.SameShape.refl _, hw, hm⟩
      | succ N ih =>
        obtain ⟨p1, e1, e2, hsh, hw1, hm1⟩ := ih (by omega) (by omega)
        have hcc := hsh.channelCount
        have hfc := hsh.frameCount
        obtain ⟨l, l', r1, r2, hlen, _⟩ := Buf.readPart_spec src hs ⟨0 + N, sf⟩ (by simp only; omega) n
          (by simp only; omega)
        obtain ⟨_, _, _, p2, e3, hsh2, hw2, hm2, _⟩ := Buf.modifyPart_spec p1 hw1 hm1
          ⟨r.channel + N, df + r.frame⟩ (by simp only; omega) n (by simp only; omega)
          (fun d => Kernels.mixInto (al N).1 (al N).2 l' d)
          (fun l hl => by
            unfold Kernels.mixInto
            rw [Kernels.kernel2_eq _ _ _ _ _ (hlen.trans hl.symm), Kernels.length_zipInto, hl])
        refine ⟨p2, ?_, ?_, hsh.trans hsh2, hw2, hm2⟩
        · rw [List.range_succ, List.foldlM_append, e1]
          simp only [List.foldlM_cons, List.foldlM_nil, bind_pure]
          refine (ok_bind r1).trans ((ok_bind r2).trans ?_)
          change (Buf.slice p1 r true).modifyPart ⟨0 + N, df⟩ n _ = _
          rw [Buf.slice_modifyPart p1 hw1 r (by omega) (by omega) ⟨0 + N, df⟩ n (by simp only; omega)
            (by simp only; omega)]
          simp only [Nat.zero_add, Nat.add_comm N r.channel, e3]
          rfl
        · rw [List.range_succ, List.foldlM_append, e2]
          simp only [List.foldlM_cons, List.foldlM_nil, bind_pure]
          exact (ok_bind r1).trans ((ok_bind r2).trans e3)

/-- `add_from` into a slice of frames. -/
theorem Shows.addFrom [Add S] (al : Nat → Nat × Nat) {dst src dst' : Grid S} {b s : Buf S}
    (h : dst.Shows b) (hsrc : src.Shows s) (w : Window) (hw : w.offset + w.count ≤ dst.frames)
    {sf df N n : Nat} (hg : dst.addFrom w src sf df N n = .ok dst') :
    ∃ b', (Buf.slice b (dst.rangeOf w) true).addFrom al s ⟨0, sf⟩ ⟨0, df⟩ N n =
        .ok (Buf.slice b' (dst.rangeOf w) true) ∧ dst'.Shows b' := by
  unfold Grid.addFrom at hg
  split at hg
  · rename_i h0
    injection hg with hg
    subst hg
    refine ⟨b, ?_, h⟩
    unfold Buf.addFrom
    by_cases hn : n = 0
    · rw [if_pos hn]
    · rw [if_neg hn, if_pos (by tauto)]
  · split at hg
    · rename_i h0 hin
      injection hg with hg
      have h1 := h.channels
      have h2 := h.frames
      have h3 := hsrc.channels
      have h4 := hsrc.frames
      obtain ⟨p', e1, e2⟩ := slice_addFrom al b h.wf h.writable (dst.rangeOf w)
        (by simp only [rangeOf]; omega) (by simp only [rangeOf]; omega) s hsrc.wf sf df n
        (by simp only [rangeOf]; omega) (by omega) N (by simp only [rangeOf]; omega) (by omega)
      refine ⟨p', e1, ?_⟩
      obtain ⟨q, e3, hsh, hwf, hwr, hv⟩ := Buf.C30_add_from al b s h.wf h.writable hsrc.wf ⟨0, sf⟩
        ⟨(dst.rangeOf w).channel, df + (dst.rangeOf w).frame⟩ N n (by simp only [rangeOf]; omega)
        (by simp only [rangeOf]; omega) (by simp only [rangeOf]; omega) (by simp only [rangeOf]; omega)
      rw [e2] at e3
      injection e3 with e3
      subst e3
      subst hg
      refine ⟨hwf, hwr, by rw [← hsh.channelCount]; exact h1, by rw [← hsh.frameCount]; exact h2, ?_⟩
      intro c f hc hf
      rw [hv]
      simp only [rangeOf, Nat.zero_le, true_and, Nat.zero_add, Nat.sub_zero]
      simp only at hc hf
      rw [show df + w.offset = w.offset + df from Nat.add_comm _ _]
      by_cases hin2 : c < N ∧ w.offset + df ≤ f ∧ f < w.offset + df + n
      · rw [if_pos hin2, if_pos hin2, hsrc.val c _ (by omega) (by omega), h.val c f hc hf]
        rfl
      · rw [if_neg hin2, if_neg hin2, h.val c f hc hf]
    · cases hg

/-- `copy_from`. -/
theorem Shows.copyFrom {dst src dst' : Grid S} {b s : Buf S} (h : dst.Shows b) (hsrc : src.Shows s)
    {sf df N n : Nat} (hg : dst.copyFrom src sf df N n = .ok dst') :
    ∃ b', b.copyFrom s ⟨0, sf⟩ ⟨0, df⟩ N n = .ok b' ∧ dst'.Shows b' := by
  unfold Grid.copyFrom at hg
  split at hg
  · rename_i h0
    injection hg with hg
    subst hg
    subst h0
    exact ⟨b, rfl, h⟩
  · split at hg
    · rename_i h0 hin
      injection hg with hg
      have h1 := h.channels
      have h2 := h.frames
      have h3 := hsrc.channels
      have h4 := hsrc.frames
      obtain ⟨q, e3, hsh, hwf, hwr, hv⟩ := Buf.copyFrom_spec b s h.wf h.writable hsrc.wf ⟨0, sf⟩ ⟨0, df⟩ N n
        (by simp only; omega) (by simp only; omega) (by simp only; omega) (by simp only; omega)
      refine ⟨q, e3, ?_⟩
      subst hg
      refine ⟨hwf, hwr, by rw [← hsh.channelCount]; exact h1, by rw [← hsh.frameCount]; exact h2, ?_⟩
      intro c f hc hf
      rw [hv]
      simp only [Nat.zero_le, true_and, Nat.zero_add, Nat.sub_zero]
      simp only at hc hf
      by_cases hin2 : c < N ∧ df ≤ f ∧ f < df + n
      · rw [if_pos hin2, if_pos hin2, hsrc.val c _ (by omega) (by omega)]
      · rw [if_neg hin2, if_neg hin2, h.val c f hc hf]
    · cases hg

end Grid
end Rawdio
