import Verif.Spec.Sampler


/-! # Lemmas about sampler voices -/

namespace Rawdio

variable {S : Type}

theorem Grid.ext' {g h : Grid S} (h1 : g.channels = h.channels) (h2 : g.frames = h.frames)
    (h3 : ∀ c f, g.val c f = h.val c f) : g = h := by
  cases g; cases h; simp only at h1 h2; subst h1 h2; congr; funext c f; exact h3 c f

theorem Grid.changed_val (g : Grid S) (w : Window) (F : Nat → Nat → S → S) (c f : Nat) :
    (g.changed w F).val c f =
      if c < g.channels ∧ w.offset ≤ f ∧ f < w.offset + w.count then F c (f - w.offset) (g.val c f)
      else g.val c f := rfl

theorem Grid.changed_mk (g : Grid S) (a b : Nat) (F : Nat → Nat → S → S) (c f : Nat) :
    (g.changed ⟨a, b⟩ F).val c f =
      if c < g.channels ∧ a ≤ f ∧ f < a + b then F c (f - a) (g.val c f) else g.val c f := rfl

theorem Grid.get_ok (g : Grid S) (w : Window) (c f : Nat) (hc : c < g.channels) (hf : f < w.count)
    (hw : w.offset + f < g.frames) : g.get w c f = .ok (g.val c (w.offset + f)) :=
  if_pos ⟨hc, hf, hw⟩

theorem Grid.get_all (g : Grid S) (c f : Nat) (hc : c < g.channels) (hf : f < g.frames) :
    g.get g.all c f = .ok (g.val c f) := by
  rw [Grid.get_ok g g.all c f hc hf (by simpa [Grid.all] using hf)]
  simp [Grid.all]

theorem Grid.set_ok (g : Grid S) (w : Window) (c f : Nat) (v : S) (hc : c < g.channels)
    (hf : f < w.count) (hw : w.offset + f < g.frames) :
    g.set w c f v = .ok { g with
      val := fun c' f' => if c' = c ∧ f' = w.offset + f then v else g.val c' f' } :=
  if_pos ⟨hc, hf, hw⟩

namespace Voice

theorem foldlM_range_succ {σ : Type} (F : σ → Nat → Res σ) (n : Nat) (s : σ) :
    (List.range (n + 1)).foldlM F s = ((List.range n).foldlM F s).bind fun s => F s n := by
  rw [List.range_succ, List.foldlM_append]
  cases (List.range n).foldlM F s with
  | error e => rfl
  | ok t =>
    change (List.foldlM F t [n]) = F t n
    simp

variable [Add S] [Mul S]

theorem fadeChannels (v : Voice) (w : Window) (d : Nat) (src : Grid S) (gain : S) (frame : Nat)
    (out : Grid S) (hw : w.offset + w.count ≤ out.frames) (hf : d + frame < w.count)
    (hs : v.position + frame < src.frames) (C : Nat) (hC : C ≤ src.channels) (hC' : C ≤ out.channels) :
    (List.range C).foldlM (fadeSample v w d src gain frame) out =
      .ok { out with
        val := fun c f => if c < C ∧ f = w.offset + (d + frame) then
          out.val c f + gain * src.val c (v.position + frame) else out.val c f } := by
  induction C with
  | zero => simp; rfl
  | succ C ih =>
    rw [foldlM_range_succ, ih (by omega) (by omega)]
    simp only [Except.bind, fadeSample, bind]
    rw [Grid.get_ok _ _ _ _ (by exact hC') (by omega) (by simp only; omega)]
    simp only
    rw [Grid.get_all _ _ _ (by omega) (by omega)]
    simp only
    rw [Grid.set_ok _ _ _ _ _ (by exact hC') (by omega) (by simp only; omega)]
    simp only
    congr 2
    funext c f
    by_cases h1 : c = C ∧ f = w.offset + (d + frame)
    · obtain ⟨rfl, rfl⟩ := h1
      simp
    · rw [if_neg h1]
      by_cases h2 : c < C ∧ f = w.offset + (d + frame)
      · rw [if_pos h2, if_pos ⟨by omega, h2.2⟩]
      · rw [if_neg h2, if_neg]
        rintro ⟨h3, h4⟩
        rcases Nat.lt_succ_iff_lt_or_eq.mp h3 with h5 | h5
        · exact h2 ⟨h5, h4⟩
        · exact h1 ⟨h5, h4⟩

variable [One S]

theorem fadeFrames_spec (v : Voice) (w : Window) (d : Nat) (src : Grid S) (fade : Fade S)
    (fp : Nat) (fi : Bool) (G : Nat → S) (count : Nat) :
    ∀ (frame : Nat) (out : Grid S), w.offset + w.count ≤ out.frames → d + frame + count ≤ w.count →
    (∀ j, frame ≤ j → j < frame + count → fadeGain fade fi (fp + j) = .ok (G j)) →
    fadeFrames v w d src fade fp fi count frame out =
      .ok (out.changed ⟨w.offset + d + frame, count⟩ fun c i o =>
        (Heard.faded (G (frame + i)) (v.position + frame + i)).mix src c o) := by
  induction count with
  | zero =>
    intro frame out hw hd hG
    simp only [fadeFrames]
    congr 1
    refine Grid.ext' rfl rfl fun c f => ?_
    simp only [Grid.changed]
    rw [if_neg (by omega)]
  | succ n ih =>
    intro frame out hw hd hG
    rw [fadeFrames]
    by_cases hs : src.frames ≤ frame + v.position
    · rw [if_pos hs]
      congr 1
      refine Grid.ext' rfl rfl fun c f => ?_
      simp only [Grid.changed, Heard.mix]
      split
      · rw [if_neg (by omega)]
      · rfl
    · rw [if_neg hs, hG frame (le_refl _) (by omega)]
      simp only [bind, Except.bind]
      rw [fadeChannels v w d src (G frame) frame out hw (by omega) (by omega) _ (Nat.min_le_left _ _)
        (Nat.min_le_right _ _)]
      simp only
      rw [ih (frame + 1) _ (by exact hw) (by omega) (fun j h1 h2 => hG j (by omega) (by omega))]
      congr 1
      refine Grid.ext' rfl rfl fun c f => ?_
      simp only [Grid.changed, Heard.mix]
      by_cases h0 : f = w.offset + (d + frame)
      · subst h0
        rw [if_neg (by omega)]
        have e1 : w.offset + (d + frame) - (w.offset + d + frame) = 0 := by omega
        rw [e1]
        simp only [Nat.add_zero]
        by_cases hc : c < out.channels
        · rw [if_pos (show c < out.channels ∧ w.offset + d + frame ≤ w.offset + (d + frame) ∧
            w.offset + (d + frame) < w.offset + d + frame + (n + 1) from ⟨hc, by omega, by omega⟩)]
          by_cases hc' : c < src.channels
          · rw [if_pos (by simp; omega), if_pos ⟨hc', by omega⟩]
          · rw [if_neg (by omega), if_neg (by omega)]
        · rw [if_neg (by omega), if_neg (by omega)]
      · by_cases h1 : c < out.channels ∧ w.offset + d + (frame + 1) ≤ f ∧
            f < w.offset + d + (frame + 1) + n
        · rw [if_pos h1, if_neg (show ¬ (c < min src.channels out.channels ∧
            f = w.offset + (d + frame)) from fun h => h0 h.2),
            if_pos (show c < out.channels ∧ w.offset + d + frame ≤ f ∧
              f < w.offset + d + frame + (n + 1) from ⟨h1.1, by omega, by omega⟩)]
          have e1 : v.position + (frame + 1) + (f - (w.offset + d + (frame + 1))) =
              v.position + frame + (f - (w.offset + d + frame)) := by omega
          have e2 : frame + 1 + (f - (w.offset + d + (frame + 1))) =
              frame + (f - (w.offset + d + frame)) := by omega
          rw [e1, e2]
        · rw [if_neg h1, if_neg (show ¬ (c < min src.channels out.channels ∧
            f = w.offset + (d + frame)) from fun h => h0 h.2),
            if_neg (show ¬ (c < out.channels ∧ w.offset + d + frame ≤ f ∧
              f < w.offset + d + frame + (n + 1)) from fun h => h1 ⟨h.1, by omega, by omega⟩)]

theorem renderFade_spec (v : Voice) (out : Grid S) (w : Window) (d : Nat) (src : Grid S)
    (fade : Fade S) (fp : Nat) (fi : Bool) (hw : w.offset + w.count ≤ out.frames) (hd : d ≤ w.count)
    (hfp : fp < fade.len) :
    renderFade v out w d src fade fp fi =
      .ok (out.changed ⟨w.offset + d, fadeCount fade fp w d⟩ fun c i o =>
        (Heard.faded (fade.value (if fi then fp + i else fade.len - (fp + i)))
          (v.position + i)).mix src c o) := by
  have hn : fadeCount fade fp w d ≤ fade.len - fp ∧ fadeCount fade fp w d ≤ w.count - d :=
    ⟨Nat.min_le_left _ _, Nat.min_le_right _ _⟩
  unfold renderFade
  rw [if_neg (by omega), fadeFrames_spec v w d src fade fp fi
    (fun j => fade.value (if fi then fp + j else fade.len - (fp + j))) _ 0 out hw (by omega)]
  · congr 1
    simp only [Nat.add_zero, Nat.zero_add]
  · intro j _ hj
    unfold fadeGain
    cases fi
    · simp only [Fade.fadeOutValue]
      rw [if_neg (by simp), if_neg (by omega)]
      simp
    · simp [Fade.fadeInValue]

theorem renderPlaying_spec (v : Voice) (out : Grid S) (w : Window) (d : Nat) (src : Grid S)
    (hw : w.offset + w.count ≤ out.frames) (hd : d ≤ w.count) :
    renderPlaying v out w d src =
      .ok (out.changed ⟨w.offset + d, w.count - d⟩ fun c i o =>
        (Heard.plain (v.position + i)).mix src c o) := by
  unfold renderPlaying
  simp only
  split
  · congr 1
    refine Grid.ext' rfl rfl fun c f => ?_
    simp only [Grid.changed, Heard.mix]
    split
    · rw [if_neg (by omega)]
    · rfl
  · unfold Grid.addFrom
    split
    · congr 1
      refine Grid.ext' rfl rfl fun c f => ?_
      simp only [Grid.changed, Heard.mix]
      split
      · rw [if_neg (by omega)]
      · rfl
    · rw [if_pos ⟨by omega, by omega, by omega, by omega, by omega⟩]
      congr 1
      refine Grid.ext' rfl rfl fun c f => ?_
      simp only [Grid.changed, Heard.mix]
      by_cases h1 : c < min src.channels out.channels ∧ w.offset + d ≤ f ∧
          f < w.offset + d + min (w.count - d) (src.frames - v.position)
      · rw [if_pos h1, if_pos ⟨by omega, by omega, by omega⟩, if_pos ⟨by omega, by omega⟩]
      · rw [if_neg h1]
        split
        · rw [if_neg (by omega)]
        · rfl

theorem changed_changed (g : Grid S) (w : Window) (a b : Nat) (F : Nat → Nat → S → S)
    (hab : a + b = w.count) :
    (g.changed ⟨w.offset, a⟩ F).changed ⟨w.offset + a, b⟩ (fun c i => F c (a + i)) =
      g.changed w F := by
  refine Grid.ext' rfl rfl fun c f => ?_
  simp only [Grid.changed]
  by_cases h1 : c < g.channels ∧ w.offset + a ≤ f ∧ f < w.offset + a + b
  · rw [if_pos h1, if_neg (by omega), if_pos ⟨h1.1, by omega, by omega⟩]
    congr 1
    omega
  · rw [if_neg h1]
    by_cases h2 : c < g.channels ∧ w.offset ≤ f ∧ f < w.offset + a
    · rw [if_pos h2, if_pos ⟨h2.1, by omega, by omega⟩]
    · rw [if_neg h2, if_neg (by omega)]

theorem changed_congr (g : Grid S) (w : Window) (F G : Nat → Nat → S → S)
    (h : ∀ c i o, c < g.channels → i < w.count → F c i o = G c i o) : g.changed w F = g.changed w G := by
  refine Grid.ext' rfl rfl fun c f => ?_
  simp only [Grid.changed]
  split
  · exact h _ _ _ (by omega) (by omega)
  · rfl

theorem changed_id (g : Grid S) (w : Window) : g.changed w (fun _ _ o => o) = g := by
  refine Grid.ext' rfl rfl fun c f => ?_
  simp [Grid.changed]

theorem renderLoop_done (src : Grid S) (fade : Fade S) (w : Window) (v : Voice) (out : Grid S) (d : Nat)
    (hd : w.count ≤ d) : renderLoop src fade w d v out = .ok (v, out) := by
  rw [renderLoop, dif_neg (by omega)]

theorem renderLoop_spec (src : Grid S) (fade : Fade S) (w : Window) (d : Nat) (v : Voice) (out : Grid S)
    (hd : d ≤ w.count) (hw : w.offset + w.count ≤ out.frames) (hv : v.Ok fade) :
    renderLoop src fade w d v out = .ok (v.after fade (w.count - d),
      out.changed ⟨w.offset + d, w.count - d⟩ fun c i o => (v.heard fade i).mix src c o) := by
  have hgen : ∀ (p d : Nat) (out : Grid S), d ≤ w.count → w.offset + w.count ≤ out.frames →
      renderLoop src fade w d ⟨p, .playing⟩ out = .ok (⟨p + (w.count - d), .playing⟩,
        out.changed ⟨w.offset + d, w.count - d⟩ fun c i o => (Heard.plain (p + i)).mix src c o) := by
    intro p d out hd hw
    by_cases hlt : d < w.count
    · rw [renderLoop, dif_pos hlt]
      simp only
      rw [renderPlaying_spec _ _ _ _ _ hw hd]
      simp only [bind, Except.bind]
      rw [renderLoop_done _ _ _ _ _ _ (le_refl _)]
    · rw [renderLoop_done _ _ _ _ _ _ (by omega)]
      have : w.count - d = 0 := by omega
      rw [this]
      congr 2
      refine Grid.ext' rfl rfl fun c f => ?_
      simp only [Grid.changed_mk]
      rw [if_neg (by omega)]
  obtain ⟨p, ph⟩ := v
  cases ph with
  | stopped =>
    rw [renderLoop]
    simp only [after, heard, Heard.mix, changed_id]
    split <;> rfl
  | playing =>
    rw [hgen p d out hd hw]; rfl
  | fadingIn k =>
    simp only [Ok] at hv
    by_cases hlt : d < w.count
    · rw [renderLoop, dif_pos hlt]
      simp only
      rw [renderFade_spec _ _ _ _ _ _ _ _ hw hd hv]
      simp only [bind, Except.bind, if_true, Bool.false_eq_true, if_false]
      have hn : fadeCount fade k w d = min (fade.values.length - k) (w.count - d) := rfl
      obtain ⟨n, hn'⟩ : ∃ n, fadeCount fade k w d = n := ⟨_, rfl⟩
      rw [hn'] at hn ⊢
      have hl : fade.len = fade.values.length := rfl
      split
      · rename_i h1
        have e : n = w.count - d := by omega
        rw [renderLoop_done _ _ _ _ _ _ (by omega)]
        simp only [after]
        rw [if_pos (by omega), e]
        congr 2
        refine changed_congr _ _ _ _ fun c i o hc hi => ?_
        simp only at hi
        simp only [heard]
        rw [if_pos (by omega)]
        rfl
      · rename_i h1
        have e : n = fade.values.length - k := by omega
        rw [hgen _ _ _ (by omega) (by exact hw)]
        simp only [after]
        rw [if_neg (by omega)]
        congr 2
        · congr 1; omega
        · have hF : ∀ (c i : Nat) (o : S), (Heard.plain (S := S) (p + n + i)).mix src c o =
            (fun c i o => (heard fade ⟨p, .fadingIn k⟩ i).mix src c o) c (n + i) o := by
            intro c i o
            simp only [heard]
            rw [if_neg (by omega), Nat.add_assoc]
          rw [← Nat.add_assoc]
          simp only [hF]
          rw [← changed_changed out ⟨w.offset + d, w.count - d⟩ n (w.count - (d + n))
            (fun c i o => (heard fade ⟨p, .fadingIn k⟩ i).mix src c o)
            (by simp only; omega)]
          congr 1
          refine changed_congr _ _ _ _ fun c i o hc hi => ?_
          simp only at hi
          simp only [heard]
          rw [if_pos (by omega)]
          rfl
    · rw [renderLoop_done _ _ _ _ _ _ (by omega)]
      have : w.count - d = 0 := by omega
      rw [this]
      simp only [after, Nat.add_zero]
      rw [if_pos hv]
      congr 2
      refine Grid.ext' rfl rfl fun c f => ?_
      simp only [Grid.changed_mk]
      rw [if_neg (by omega)]
  | fadingOut k =>
    simp only [Ok] at hv
    by_cases hlt : d < w.count
    · rw [renderLoop, dif_pos hlt]
      simp only
      rw [renderFade_spec _ _ _ _ _ _ _ _ hw hd hv]
      simp only [bind, Except.bind, if_true, Bool.false_eq_true, if_false]
      have hn : fadeCount fade k w d = min (fade.values.length - k) (w.count - d) := rfl
      obtain ⟨n, hn'⟩ : ∃ n, fadeCount fade k w d = n := ⟨_, rfl⟩
      rw [hn'] at hn ⊢
      have hl : fade.len = fade.values.length := rfl
      split
      · rename_i h1
        have e : n = w.count - d := by omega
        rw [renderLoop_done _ _ _ _ _ _ (by omega)]
        simp only [after]
        rw [if_pos (by omega), e]
        congr 2
        refine changed_congr _ _ _ _ fun c i o hc hi => ?_
        simp only at hi
        simp only [heard]
        rw [if_pos (by omega)]
        rfl
      · rename_i h1
        have e : n = fade.values.length - k := by omega
        have hstop : ∀ o, renderLoop src fade w (d + n) ⟨p + n, .stopped⟩ o =
            .ok (⟨p + n, .stopped⟩, o) := by
          intro o
          rw [renderLoop]
          split <;> rfl
        rw [hstop]
        simp only [after]
        rw [if_neg (by omega)]
        congr 2
        · congr 1; omega
        · refine Grid.ext' rfl rfl fun c f => ?_
          simp only [Grid.changed_mk, heard]
          by_cases h2 : c < out.channels ∧ w.offset + d ≤ f ∧ f < w.offset + d + n
          · rw [if_pos h2, if_pos ⟨h2.1, by omega, by omega⟩, if_pos (by omega)]
            rfl
          · rw [if_neg h2]
            split
            · rw [if_neg (by omega)]; rfl
            · rfl
    · rw [renderLoop_done _ _ _ _ _ _ (by omega)]
      have : w.count - d = 0 := by omega
      rw [this]
      simp only [after, Nat.add_zero]
      rw [if_pos hv]
      congr 2
      refine Grid.ext' rfl rfl fun c f => ?_
      simp only [Grid.changed_mk]
      rw [if_neg (by omega)]

/-- A voice renders what is heard of it and is then in the state it should be in. -/
theorem render_spec (src : Grid S) (fade : Fade S) (w : Window) (v : Voice) (out : Grid S)
    (hw : w.offset + w.count ≤ out.frames) (hv : v.Ok fade) :
    v.render out w src fade = .ok (v.after fade w.count,
      out.changed w fun c i o => (v.heard fade i).mix src c o) := by
  unfold render
  split
  · rename_i h
    obtain ⟨p, ph⟩ := v
    cases ph <;> simp [isStopped] at h
    simp only [after, heard, Heard.mix, changed_id]
  · rw [renderLoop_spec src fade w 0 v out (Nat.zero_le _) hw hv]
    rfl

omit [Add S] [Mul S] [One S] in
theorem after_in_lt (fade : Fade S) {p k n : Nat} (h : k + n < fade.values.length) :
    after fade ⟨p, .fadingIn k⟩ n = ⟨p + n, .fadingIn (k + n)⟩ := by
  simp only [after]; rw [if_pos h]

omit [Add S] [Mul S] [One S] in
theorem after_in_ge (fade : Fade S) {p k n : Nat} (h : ¬ k + n < fade.values.length) :
    after fade ⟨p, .fadingIn k⟩ n = ⟨p + n, .playing⟩ := by
  simp only [after]; rw [if_neg h]

omit [Add S] [Mul S] [One S] in
theorem after_out_lt (fade : Fade S) {p k n : Nat} (h : k + n < fade.values.length) :
    after fade ⟨p, .fadingOut k⟩ n = ⟨p + n, .fadingOut (k + n)⟩ := by
  simp only [after]; rw [if_pos h]

omit [Add S] [Mul S] [One S] in
theorem after_out_ge (fade : Fade S) {p k n : Nat} (h : ¬ k + n < fade.values.length) :
    after fade ⟨p, .fadingOut k⟩ n = ⟨p + (fade.values.length - k), .stopped⟩ := by
  simp only [after]; rw [if_neg h]

omit [Add S] [Mul S] in
theorem heard_after (fade : Fade S) (v : Voice) (n i : Nat) :
    (v.after fade n).heard fade i = v.heard fade (n + i) := by
  obtain ⟨p, ph⟩ := v
  cases ph with
  | stopped => rfl
  | playing => simp only [after, heard, Nat.add_assoc]
  | fadingIn k =>
    by_cases h : k + n < fade.values.length
    · rw [after_in_lt fade h]
      simp only [heard, Nat.add_assoc]
    · rw [after_in_ge fade h]
      simp only [heard, Nat.add_assoc]
      rw [if_neg (by omega)]
  | fadingOut k =>
    by_cases h : k + n < fade.values.length
    · rw [after_out_lt fade h]
      simp only [heard, Nat.add_assoc]
    · rw [after_out_ge fade h]
      simp only [heard]
      rw [if_neg (by omega)]

omit [Add S] [Mul S] [One S] in
theorem after_after (fade : Fade S) (v : Voice) (n m : Nat) :
    (v.after fade n).after fade m = v.after fade (n + m) := by
  obtain ⟨p, ph⟩ := v
  cases ph with
  | stopped => rfl
  | playing => simp only [after, Nat.add_assoc]
  | fadingIn k =>
    by_cases h : k + n < fade.values.length
    · rw [after_in_lt fade h]
      simp only [after, Nat.add_assoc]
    · rw [after_in_ge fade h, after_in_ge fade (by omega)]
      simp only [after, Nat.add_assoc]
  | fadingOut k =>
    by_cases h : k + n < fade.values.length
    · rw [after_out_lt fade h]
      by_cases h' : k + (n + m) < fade.values.length
      · rw [after_out_lt fade h', after_out_lt fade (by omega), Nat.add_assoc, Nat.add_assoc]
      · rw [after_out_ge fade h', after_out_ge fade (by omega)]
        congr 1; omega
    · rw [after_out_ge fade h, after_out_ge fade (by omega)]
      rfl

omit [Add S] [Mul S] [One S] in
theorem after_ok (fade : Fade S) (v : Voice) (hv : v.Ok fade) (n : Nat) : (v.after fade n).Ok fade := by
  obtain ⟨p, ph⟩ := v
  cases ph with
  | stopped => trivial
  | playing => trivial
  | fadingIn k =>
    simp only [after]
    split <;> simp_all [Ok]
  | fadingOut k =>
    simp only [after]
    split <;> simp_all [Ok]

omit [Add S] [Mul S] [One S] in
theorem after_zero (fade : Fade S) (v : Voice) (hv : v.Ok fade) : v.after fade 0 = v := by
  obtain ⟨p, ph⟩ := v
  cases ph <;> simp_all [after, Ok]

omit [Add S] [Mul S] [One S] in
theorem stop_ok (fade : Fade S) (v : Voice) (hL : 0 < fade.values.length) (hv : v.Ok fade) :
    v.stop.Ok fade := by
  obtain ⟨p, ph⟩ := v
  cases ph <;> simp_all [stop, Ok]

theorem stop_ending (v : Voice) : v.stop.Ending := by
  obtain ⟨p, ph⟩ := v
  cases ph <;> simp [stop, Ending]

omit [Add S] [Mul S] [One S] in
theorem start_ok (fade : Fade S) (p : Nat) (hL : 0 < fade.values.length) :
    (startFromPosition p).Ok fade := by
  unfold startFromPosition Ok
  by_cases h : p = 0 <;> simp [h, hL]

end Voice
end Rawdio
