import Verif.Props.Buffers2
import Verif.Props.Buffers
import Verif.Model.DspGraph

/-! Helper lemmas about render buffers: owned buffers of one fixed size, seen as a function from
channel and frame to sample. -/

namespace Rawdio

open Buf

variable {S : Type}

/-- Inversion of `do` blocks. -/
theorem bind_ok {α β : Type} {x : Res α} {f : α → Res β} {b : β} (h : (x >>= f) = .ok b) :
    ∃ a, x = .ok a ∧ f a = .ok b := by
  cases x with
  | error e => cases h
  | ok a => exact ⟨a, rfl, h⟩

theorem ok_bind {α β : Type} {x : Res α} {f : α → Res β} {a : α} (h : x = .ok a) :
    (x >>= f) = f a := by subst h; rfl

theorem foldlM_cons_ok {α β : Type} {f : α → β → Res α} {a r : α} {b : β} {bs : List β}
    (h : (b :: bs).foldlM f a = .ok r) : ∃ a', f a b = .ok a' ∧ bs.foldlM f a' = .ok r := by
  rw [List.foldlM_cons] at h
  exact bind_ok h

/-- Channels, frames and sample rate. -/
structure Dims where
  ch : Nat
  fr : Nat
  sr : Nat

/-- `b` is an owned buffer of size `D` that holds the samples `x`. -/
structure Holds (D : Dims) (b : Buf S) (x : Nat → Nat → S) : Prop where
  shape : ∃ data, b = owned data D.ch D.fr D.sr ∧ data.length = D.ch * D.fr
  get : ∀ c f, c < D.ch → f < D.fr → b.sample? c f = some (x c f)

namespace Holds

variable {D : Dims} {b : Buf S} {x y : Nat → Nat → S}

theorem wf (h : Holds D b x) : b.WF := by
  obtain ⟨d, rfl, hd⟩ := h.shape; exact hd

theorem writable (h : Holds D b x) : b.Writable := by
  obtain ⟨d, rfl, hd⟩ := h.shape; trivial

theorem cc (h : Holds D b x) : b.channelCount = D.ch := by
  obtain ⟨d, rfl, hd⟩ := h.shape; rfl

theorem fc (h : Holds D b x) : b.frameCount = D.fr := by
  obtain ⟨d, rfl, hd⟩ := h.shape; rfl

theorem congr (h : Holds D b x) (hxy : ∀ c f, c < D.ch → f < D.fr → x c f = y c f) :
    Holds D b y := ⟨h.shape, fun c f hc hf => by rw [h.get c f hc hf, hxy c f hc hf]⟩

theorem of_sameShape {b' : Buf S} (h : Holds D b x) (hs : b.SameShape b') (hw : b'.WF)
    (hg : ∀ c f, c < D.ch → f < D.fr → b'.sample? c f = some (y c f)) : Holds D b' y := by
  refine ⟨?_, hg⟩
  obtain ⟨d, rfl, hd⟩ := h.shape
  cases b' with
  | owned d' c f r =>
    simp only [SameShape] at hs
    obtain ⟨rfl, rfl, rfl⟩ := hs
    exact ⟨d', rfl, hw⟩
  | slice => simp [SameShape] at hs

theorem new [Zero S] : Holds D (Buf.new D.fr D.ch D.sr : Buf S) (fun _ _ => 0) := by
  refine ⟨⟨_, rfl, ?_⟩, ?_⟩
  · simp [Nat.mul_comm]
  · intro c f hc hf
    rw [new_sample?, if_pos ⟨hc, hf⟩]

/-- A buffer is determined by its size and samples. -/
theorem unique {b' : Buf S} (h : Holds D b x) (h' : Holds D b' x) : b = b' := by
  obtain ⟨d, rfl, hd⟩ := h.shape
  obtain ⟨d', rfl, hd'⟩ := h'.shape
  congr 1
  apply List.ext_getElem?
  intro i
  by_cases hi : i < D.ch * D.fr
  · have hfr : 0 < D.fr := by
      rcases Nat.eq_zero_or_pos D.fr with h0 | h0
      · rw [h0, Nat.mul_zero] at hi; omega
      · exact h0
    have hc : i / D.fr < D.ch := Nat.div_lt_of_lt_mul (by rw [Nat.mul_comm]; exact hi)
    have hf : i % D.fr < D.fr := Nat.mod_lt _ hfr
    have e1 := h.get _ _ hc hf
    have e2 := h'.get _ _ hc hf
    simp only [sample?, hc, hf, and_self, if_true] at e1 e2
    have : i / D.fr * D.fr + i % D.fr = i := by
      rw [Nat.mul_comm]; exact Nat.div_add_mod ..
    rw [this] at e1 e2
    rw [e1, e2]
  · rw [List.getElem?_eq_none (by omega), List.getElem?_eq_none (by omega)]

theorem eq_new [Zero S] (h : Holds D b (fun _ _ => 0)) : b = Buf.new D.fr D.ch D.sr :=
  h.unique new

theorem clear [Zero S] (h : Holds D b x) : b.clear = .ok (Buf.new D.fr D.ch D.sr) := by
  obtain ⟨b', h1, h2, h3, _, h5⟩ := C36_clear b h.wf h.writable
  rw [h1]
  congr 1
  apply eq_new
  refine h.of_sameShape h2 h3 (fun c f hc hf => h5 c f ?_ ?_)
  · rw [h.cc]; exact hc
  · rw [h.fc]; exact hf

end Holds

/-- A region operation between owned buffers that succeeds on a non-empty region was inside both. -/
theorem region_ok_inside {D : Dims} {dd sd : List S} (hd : dd.length = D.ch * D.fr)
    (hs : sd.length = D.ch * D.fr) {sl dl : Loc} {N n : Nat} (hN : 0 < N) (hn : 0 < n)
    (op : Nat → List S → List S → List S)
    (hop : ∀ c s l, s.length = n → l.length = n → (op c s l).length = n) {b' : Buf S}
    (h : (List.range N).foldlM
        (fun (dst : Buf S) c => do
          let source ← (owned sd D.ch D.fr D.sr).channelData (sl.offsetChannels c)
          let source ← sliceRange source 0 n
          dst.modifyPart (dl.offsetChannels c) n (op c source)) (owned dd D.ch D.fr D.sr) = .ok b') :
    sl.channel + N ≤ D.ch ∧ sl.frame + n ≤ D.fr ∧ dl.channel + N ≤ D.ch ∧ dl.frame + n ≤ D.fr := by
  obtain ⟨_, hall⟩ := foldlM_range_ok N _ b' h
    (fun b => ∃ d, b = owned d D.ch D.fr D.sr ∧ d.length = D.ch * D.fr) ⟨dd, rfl, hd⟩ (by
      rintro b c b'' ⟨d, rfl, hdl⟩ hb
      obtain ⟨l1, h1, hb⟩ := bind_ok hb
      obtain ⟨l2, h2, hb⟩ := bind_ok hb
      refine owned_modifyPart_shape hdl ?_ hn hb
      intro l hl
      simp only [sliceRange] at h2
      split_ifs at h2
      injection h2 with h2
      refine hop c l2 l ?_ hl
      rw [← h2]
      simp only [List.length_take, List.length_drop]; omega)
  obtain ⟨b1, b2, ⟨d, rfl, hdl⟩, hb⟩ := hall (N - 1) (by omega)
  obtain ⟨l1, h1, hb⟩ := bind_ok hb
  obtain ⟨l2, h2, hb⟩ := bind_ok hb
  have e1 := owned_range_ok hs hn h1 h2
  have e2 := owned_modifyPart_ok hdl hn hb
  simp only [Loc.offsetChannels] at e1 e2
  omega

namespace DspGraph

/-- The region of a connection lies inside buffers of `ch` channels. -/
def RegionFits (ch sc dc N : Nat) : Prop := N = 0 ∨ (sc + N ≤ ch ∧ dc + N ≤ ch)

/-- The samples after mixing `N` channels of `y` from channel `sc` into `x` at channel `dc`. -/
def mixed [Add S] (behaviour : MixBehaviour) (sc dc N n : Nat) (x y : Nat → Nat → S) :
    Nat → Nat → S :=
  fun c f => if dc ≤ c ∧ c < dc + N ∧ f < n then
    (match behaviour with
      | .overwrite => y (sc + (c - dc)) f
      | .mix => x c f + y (sc + (c - dc)) f)
    else x c f

theorem mixBuffer_fits [Add S] {D : Dims} {dst src : Buf S} {x y : Nat → Nat → S}
    (hx : Holds D dst x) (hy : Holds D src y) (al : Nat → Nat × Nat) {sc dc N n : Nat}
    (hn : n ≤ D.fr) (hf : RegionFits D.ch sc dc N) (beh : MixBehaviour) :
    ∃ b', mixBuffer al dst src sc dc N n beh = .ok b' ∧ Holds D b' (mixed beh sc dc N n x y) := by
  by_cases hN : N = 0
  · subst hN
    refine ⟨dst, ?_, hx.congr ?_⟩
    · cases beh
      · rfl
      · simp only [mixBuffer, addFrom, if_true]
        split_ifs <;> rfl
    · intro c f _ _
      simp only [mixed]
      rw [if_neg (by omega)]
  · obtain ⟨h1, h2⟩ := hf.resolve_left hN
    cases beh with
    | overwrite =>
      obtain ⟨b', e, hsh, hw, hm, hs⟩ := copyFrom_spec dst src hx.wf hx.writable hy.wf
        (Loc.ofChannel sc) (Loc.ofChannel dc) N n (by rw [hy.cc]; exact h1)
        (by rw [hy.fc]; simpa [Loc.ofChannel] using hn) (by rw [hx.cc]; exact h2)
        (by rw [hx.fc]; simpa [Loc.ofChannel] using hn)
      refine ⟨b', e, hx.of_sameShape hsh hw ?_⟩
      intro c f hc hf
      rw [hs]
      simp only [Loc.ofChannel, Nat.zero_le, true_and, Nat.zero_add, Nat.sub_zero, mixed]
      split_ifs with hr
      · exact hy.get _ _ (by omega) hf
      · exact hx.get _ _ hc hf
    | mix =>
      obtain ⟨b', e, hsh, hw, hm, hs⟩ := C30_add_from al dst src hx.wf hx.writable hy.wf
        (Loc.ofChannel sc) (Loc.ofChannel dc) N n (by rw [hy.cc]; exact h1)
        (by rw [hy.fc]; simpa [Loc.ofChannel] using hn) (by rw [hx.cc]; exact h2)
        (by rw [hx.fc]; simpa [Loc.ofChannel] using hn)
      refine ⟨b', e, hx.of_sameShape hsh hw ?_⟩
      intro c f hc hf
      rw [hs]
      simp only [Loc.ofChannel, Nat.zero_le, true_and, Nat.zero_add, Nat.sub_zero, mixed]
      split_ifs with hr
      · rw [hy.get _ _ (by omega) hf, hx.get _ _ hc hf]; rfl
      · exact hx.get _ _ hc hf

theorem mixBuffer_ok [Add S] {D : Dims} {dst src b' : Buf S} {x y : Nat → Nat → S}
    (hx : Holds D dst x) (hy : Holds D src y) {al : Nat → Nat × Nat} {sc dc N n : Nat}
    (hn : n ≤ D.fr) (hn0 : 0 < n) {beh : MixBehaviour}
    (h : mixBuffer al dst src sc dc N n beh = .ok b') :
    RegionFits D.ch sc dc N ∧ Holds D b' (mixed beh sc dc N n x y) := by
  have hf : RegionFits D.ch sc dc N := by
    by_cases hN : N = 0
    · exact .inl hN
    · obtain ⟨dd, rfl, hd⟩ := hx.shape
      obtain ⟨sd, rfl, hs⟩ := hy.shape
      cases beh with
      | overwrite =>
        have := region_ok_inside hd hs (by omega) hn0 (fun _ s _ => s) (fun _ _ _ hs _ => hs) h
        simp only [Loc.ofChannel] at this
        exact .inr (by omega)
      | mix =>
        simp only [mixBuffer, addFrom] at h
        rw [if_neg (by omega), if_neg hN] at h
        have := region_ok_inside hd hs (by omega) hn0
          (fun c s d => Kernels.mixInto (al c).1 (al c).2 s d) (by
            intro c s l hs hl
            simp only [Kernels.mixInto]
            rw [Kernels.kernel2_eq _ _ _ _ _ (hs.trans hl.symm), Kernels.length_zipInto, hl]) h
        simp only [Loc.ofChannel] at this
        exact .inr (by omega)
  refine ⟨hf, ?_⟩
  obtain ⟨b2, e, hh⟩ := mixBuffer_fits hx hy al hn hf beh
  rw [h] at e
  injection e with e
  exact e ▸ hh

end DspGraph
end Rawdio
