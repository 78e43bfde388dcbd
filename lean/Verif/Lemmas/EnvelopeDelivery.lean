import Verif.Lemmas.Envelope

/-! Helper lemmas: what the audio side of an envelope node does, and what it sends, does not depend on what waits in
the channel. -/

namespace Rawdio
namespace EnvelopeNode

/-- Two nodes that differ at most in what has been sent. -/
def Alike (a b : EnvelopeNode) : Prop :=
  a.envelopes = b.envelopes ∧ a.notification = b.notification ∧ a.peaks = b.peaks

/-- Both nodes have sent the same, and received nothing. -/
def Sends (a a' b b' : EnvelopeNode) (sent : List EnvelopeNotification) : Prop :=
  a'.channel = a.channel ++ sent ∧ b'.channel = b.channel ++ sent ∧
    a'.notifications = a.notifications ∧ b'.notifications = b.notifications

theorem Sends.trans {a a' a'' b b' b'' : EnvelopeNode} {s t : List EnvelopeNotification}
    (h : Sends a a' b b' s) (h' : Sends a' a'' b' b'' t) : Sends a a'' b b'' (s ++ t) := by
  obtain ⟨h1, h2, h3, h4⟩ := h
  obtain ⟨k1, k2, k3, k4⟩ := h'
  exact ⟨by rw [k1, h1, List.append_assoc], by rw [k2, h2, List.append_assoc], by rw [k3, h3], by rw [k4, h4]⟩

/-- Reports, any number of times, each with one entry for each of the channels. -/
def Groups (n : Nat) (sent : List EnvelopeNotification) : Prop :=
  ∃ groups : List (List ℝ), (∀ g ∈ groups, g.length = n) ∧ sent = (groups.map reportsOf).flatten

theorem Groups.nil (n : Nat) : Groups n [] := ⟨[], by simp, by simp⟩

theorem Groups.append {n : Nat} {s t : List EnvelopeNotification} (h : Groups n s) (h' : Groups n t) :
    Groups n (s ++ t) := by
  obtain ⟨g, h1, h2⟩ := h
  obtain ⟨g', h1', h2'⟩ := h'
  refine ⟨g ++ g', ?_, by rw [h2, h2']; simp⟩
  intro x hx
  rcases List.mem_append.mp hx with hx | hx
  · exact h1 x hx
  · exact h1' x hx

/-- A step sends the same whatever waits in the channel, and satisfies `P`. -/
def Blind (P : List EnvelopeNotification → Prop) (f : EnvelopeNode → Res EnvelopeNode) : Prop :=
  ∀ a b a' b', Alike a b → f a = .ok a' → f b = .ok b' → Alike a' b' ∧ ∃ sent, Sends a a' b b' sent ∧ P sent

theorem channelStep_blind (input : Buf ℝ) (position frameCount channel : Nat) :
    Blind (· = []) (fun e => channelStep input position frameCount e channel) := by
  intro a b a' b' ⟨h1, h2, h3⟩ ha hb
  unfold channelStep at ha hb
  obtain ⟨d, e1, ha⟩ := bind_ok ha
  obtain ⟨d', e1', hb⟩ := bind_ok hb
  rw [e1] at e1'; cases e1'
  obtain ⟨s, e2, ha⟩ := bind_ok ha
  obtain ⟨s', e2', hb⟩ := bind_ok hb
  rw [e2] at e2'; cases e2'
  obtain ⟨v, e3, ha⟩ := bind_ok ha
  obtain ⟨v', e3', hb⟩ := bind_ok hb
  rw [h1] at e3
  rw [e3] at e3'; cases e3'
  obtain ⟨p, e4, ha⟩ := bind_ok ha
  obtain ⟨p', e4', hb⟩ := bind_ok hb
  rw [h3] at e4
  rw [e4] at e4'; cases e4'
  cases ha
  cases hb
  refine ⟨⟨?_, h2, ?_⟩, [], ⟨by simp, by simp, rfl, rfl⟩, rfl⟩
  · simp only [h1]
  · simp only [h3]

theorem foldl_blind {f : EnvelopeNode → Nat → Res EnvelopeNode} (h : ∀ c, Blind (· = []) (fun e => f e c))
    (cs : List Nat) : Blind (· = []) (fun e => cs.foldlM f e) := by
  induction cs with
  | nil =>
    intro a b a' b' hab ha hb
    cases ha
    cases hb
    exact ⟨hab, [], ⟨by simp, by simp, rfl, rfl⟩, rfl⟩
  | cons c cs ih =>
    intro a b a' b' hab ha hb
    obtain ⟨m, e1, e2⟩ := foldlM_cons_ok ha
    obtain ⟨m', e1', e2'⟩ := foldlM_cons_ok hb
    obtain ⟨k1, s, k2, k3⟩ := h c a b m m' hab e1 e1'
    obtain ⟨l1, t, l2, l3⟩ := ih m m' a' b' k1 e2 e2'
    refine ⟨l1, s ++ t, k2.trans l2, ?_⟩
    rw [k3, l3]
    rfl

/-- What sending does when it succeeds. -/
theorem sends_eq (e : EnvelopeNode) (n : Nat) : ∀ e', (List.range n).foldlM sendOne e = .ok e' →
    n ≤ e.peaks.length ∧
      e' = { e with channel := e.channel ++ (List.range n).map (fun c => ⟨c, (e.peaks[c]?).getD 0⟩) } := by
  induction n with
  | zero =>
    intro e' h
    cases h
    simp
  | succ n ih =>
    intro e' h
    rw [List.range_succ, List.foldlM_append] at h
    obtain ⟨m, e1, e2⟩ := bind_ok h
    obtain ⟨hn, rfl⟩ := ih m e1
    obtain ⟨m', e3, e4⟩ := foldlM_cons_ok e2
    cases e4
    unfold sendOne at e3
    obtain ⟨p, e5, e6⟩ := bind_ok e3
    simp only at e5 e6
    unfold Buf.index at e5
    split at e5
    · rename_i x hx
      cases e5
      obtain ⟨hlt, _⟩ := List.getElem?_eq_some_iff.mp hx
      split at e6
      · cases e6
        refine ⟨hlt, ?_⟩
        simp [hx, List.range_succ]
      · cases e6
    · cases e5

theorem sendNotifications_blind (n : Nat) :
    Blind (fun s => ∃ g : List ℝ, g.length = n ∧ s = reportsOf g) (fun e => e.sendNotifications n) := by
  intro a b a' b' ⟨h1, h2, h3⟩ ha hb
  unfold sendNotifications at ha hb
  obtain ⟨m, e1, e2⟩ := bind_ok ha
  obtain ⟨m', e1', e2'⟩ := bind_ok hb
  obtain ⟨hl, rfl⟩ := sends_eq a n m e1
  obtain ⟨_, rfl⟩ := sends_eq b n m' e1'
  cases e2
  cases e2'
  refine ⟨⟨h1, h2, by simp only [h3]⟩, _, ⟨rfl, by simp only [h3], rfl, rfl⟩, a.peaks.take n, by simp [hl], ?_⟩
  unfold reportsOf
  rw [List.length_take, min_eq_left hl]
  refine List.map_congr_left fun c hc => ?_
  rw [List.getElem?_take_of_lt (List.mem_range.mp hc)]

theorem notify_blind (fuel : Nat) (input : Buf ℝ) :
    Blind (Groups input.channelCount) (fun e => e.notify fuel input) := by
  intro a b a' b' ⟨h1, h2, h3⟩ ha hb
  unfold notify at ha hb
  obtain ⟨⟨p, due⟩, e1, e2⟩ := bind_ok ha
  obtain ⟨⟨p', due'⟩, e1', e2'⟩ := bind_ok hb
  rw [h2, e1'] at e1
  cases e1
  simp only at e2 e2'
  cases due with
  | true =>
    simp only [if_true] at e2 e2'
    obtain ⟨k1, s, k2, g, hg, rfl⟩ := sendNotifications_blind input.channelCount
      { a with notification := p } { b with notification := p } a' b' ⟨h1, rfl, h3⟩ e2 e2'
    exact ⟨k1, _, k2, [g], by simpa using hg, by simp⟩
  | false =>
    simp only [Bool.false_eq_true, if_false] at e2 e2'
    cases e2
    cases e2'
    exact ⟨⟨h1, rfl, h3⟩, [], ⟨by simp, by simp, rfl, rfl⟩, Groups.nil _⟩

theorem loop_blind (fuel : Nat) (input : Buf ℝ) (rounds : Nat) : ∀ position,
    Blind (Groups input.channelCount) (fun e => loop fuel input rounds e position) := by
  induction rounds with
  | zero => intro position a b a' b' _ ha _; cases ha
  | succ rounds ih =>
    intro position a b a' b' hab ha hb
    simp only [loop] at ha hb
    split at ha
    · rename_i hp
      rw [if_pos hp] at hb
      obtain ⟨m, e1, e2⟩ := bind_ok ha
      obtain ⟨m', e1', e2'⟩ := bind_ok hb
      obtain ⟨n, e3, e4⟩ := bind_ok e2
      obtain ⟨n', e3', e4'⟩ := bind_ok e2'
      rw [← hab.2.1] at e1' e4'
      obtain ⟨k1, s, k2, rfl⟩ := foldl_blind (fun c => channelStep_blind input position _ c) _ a b m m' hab e1 e1'
      obtain ⟨l1, t, l2, l3⟩ := notify_blind fuel input m m' n n' k1 e3 e3'
      obtain ⟨r1, u, r2, r3⟩ := ih _ n n' a' b' l1 e4 e4'
      exact ⟨r1, _, (k2.trans l2).trans r2, ((Groups.nil _).append l3).append r3⟩
    · rename_i hp
      rw [if_neg hp] at hb
      cases ha
      cases hb
      exact ⟨hab, [], ⟨by simp, by simp, rfl, rfl⟩, Groups.nil _⟩

theorem processAudio_blind (rounds fuel : Nat) (input : Buf ℝ) :
    Blind (Groups input.channelCount) (fun e => e.processAudio rounds fuel input) :=
  loop_blind fuel input rounds 0

/-- Everything sent, in the order it will be taken. -/
def stream (s : EnvelopeNode × List EnvelopeNotification) : List EnvelopeNotification :=
  s.2 ++ s.1.notifications ++ s.1.channel

/-- Receiving and taking do not change what has been sent. -/
theorem stream_control (rounds fuel : Nat) (s s' : EnvelopeNode × List EnvelopeNotification) (ev : EnvelopeEvent)
    (hev : ∀ input, ev ≠ .block input) (h : event rounds fuel s ev = .ok s') :
    stream s' = stream s ∧ Alike s.1 s'.1 := by
  cases ev with
  | block input => exact absurd rfl (hev input)
  | poll =>
    cases h
    exact ⟨by simp [stream, processNotifications], rfl, rfl, rfl⟩
  | take =>
    cases h
    exact ⟨by simp [stream, takeNotifications], rfl, rfl, rfl⟩

/-- A history of events against its blocks alone, from nodes that are alike. -/
theorem history_blind (rounds fuel : Nat) : ∀ (xs ys : List EnvelopeEvent)
    (s t s' t' : EnvelopeNode × List EnvelopeNotification), Alike s.1 t.1 → stream s = stream t →
    EnvelopeEvent.blocks xs = EnvelopeEvent.blocks ys → xs.foldlM (event rounds fuel) s = .ok s' →
    ys.foldlM (event rounds fuel) t = .ok t' → Alike s'.1 t'.1 ∧ stream s' = stream t' := by
  have ctl : ∀ (ys : List EnvelopeEvent) (s t t' : EnvelopeNode × List EnvelopeNotification), Alike s.1 t.1 →
      stream s = stream t → ys.foldlM (event rounds fuel) t = .ok t' → EnvelopeEvent.blocks ys = [] →
      Alike s.1 t'.1 ∧ stream s = stream t' := by
    intro ys
    induction ys with
    | nil => intro s t t' h1 h2 h3 _; cases h3; exact ⟨h1, h2⟩
    | cons y ys ih =>
      intro s t t' h1 h2 h3 h4
      obtain ⟨m, e1, e2⟩ := foldlM_cons_ok h3
      have hy : ∀ input, y ≠ .block input := by rintro input rfl; simp [EnvelopeEvent.blocks] at h4
      obtain ⟨k1, k2⟩ := stream_control rounds fuel t m y hy e1
      refine ih s m t' ?_ (h2.trans k1.symm) e2 ?_
      · exact ⟨h1.1.trans k2.1, h1.2.1.trans k2.2.1, h1.2.2.trans k2.2.2⟩
      · cases y with
        | block input => exact absurd rfl (hy input)
        | poll => exact h4
        | take => exact h4
  have seek : ∀ (ys : List EnvelopeEvent) (s t t' : EnvelopeNode × List EnvelopeNotification) (input : Buf ℝ)
      (rest : List (Buf ℝ)), Alike s.1 t.1 → stream s = stream t → ys.foldlM (event rounds fuel) t = .ok t' →
      EnvelopeEvent.blocks ys = input :: rest → ∃ m m' ys', Alike s.1 m.1 ∧ stream s = stream m ∧
        event rounds fuel m (.block input) = .ok m' ∧ ys'.foldlM (event rounds fuel) m' = .ok t' ∧
        EnvelopeEvent.blocks ys' = rest := by
    intro ys
    induction ys with
    | nil => intro s t t' input rest _ _ _ h; cases h
    | cons y ys ih =>
      intro s t t' input rest h1 h2 h3 h4
      obtain ⟨m, e1, e2⟩ := foldlM_cons_ok h3
      by_cases hy : ∀ input, y ≠ .block input
      · obtain ⟨k1, k2⟩ := stream_control rounds fuel t m y hy e1
        refine ih s m t' input rest ?_ (h2.trans k1.symm) e2 ?_
        · exact ⟨h1.1.trans k2.1, h1.2.1.trans k2.2.1, h1.2.2.trans k2.2.2⟩
        · cases y with
          | block input => exact absurd rfl (hy input)
          | poll => exact h4
          | take => exact h4
      · push Not at hy
        obtain ⟨i, rfl⟩ := hy
        have : i = input ∧ EnvelopeEvent.blocks ys = rest := by
          simpa [EnvelopeEvent.blocks] using h4
        obtain ⟨rfl, hr⟩ := this
        exact ⟨t, m, ys, h1, h2, e1, e2, hr⟩
  intro xs
  induction xs with
  | nil =>
    intro ys s t s' t' h1 h2 h3 h4 h5
    cases h4
    exact ctl ys s t t' h1 h2 h5 h3.symm
  | cons x xs ih =>
    intro ys s t s' t' h1 h2 h3 h4 h5
    obtain ⟨m, e1, e2⟩ := foldlM_cons_ok h4
    by_cases hx : ∀ input, x ≠ .block input
    · obtain ⟨k1, k2⟩ := stream_control rounds fuel s m x hx e1
      refine ih ys m t s' t' ?_ (k1.trans h2) ?_ e2 h5
      · exact ⟨k2.1.symm.trans h1.1, k2.2.1.symm.trans h1.2.1, k2.2.2.symm.trans h1.2.2⟩
      · cases x with
        | block input => exact absurd rfl (hx input)
        | poll => exact h3
        | take => exact h3
    · push Not at hx
      obtain ⟨i, rfl⟩ := hx
      obtain ⟨n, n', ys', k1, k2, k3, k4, k5⟩ := seek ys s t t' i (EnvelopeEvent.blocks xs) h1 h2 h5 (by
        rw [← h3]; rfl)
      simp only [event, Except.map] at e1 k3
      split at e1
      · cases e1
      · rename_i a ha
        split at k3
        · cases k3
        · rename_i b hb
          cases e1
          cases k3
          obtain ⟨l1, sent, ⟨l2, l3, l4, l5⟩, _⟩ := processAudio_blind rounds fuel i s.1 n.1 a b k1 ha hb
          refine ih ys' _ _ s' t' l1 ?_ k5.symm e2 k4
          unfold stream at k2 ⊢
          simp only [l2, l3, l4, l5]
          rw [← List.append_assoc, k2, ← List.append_assoc]

/-- The stream of a history in which all inputs have `n` channels. -/
theorem history_groups (rounds fuel n : Nat) : ∀ (xs : List EnvelopeEvent)
    (s s' : EnvelopeNode × List EnvelopeNotification), (∀ b ∈ EnvelopeEvent.blocks xs, b.channelCount = n) →
    Groups n (stream s) → xs.foldlM (event rounds fuel) s = .ok s' → Groups n (stream s') := by
  intro xs
  induction xs with
  | nil => intro s s' _ h1 h2; cases h2; exact h1
  | cons x xs ih =>
    intro s s' hb h1 h2
    obtain ⟨m, e1, e2⟩ := foldlM_cons_ok h2
    have hm : Groups n (stream m) := by
      by_cases hx : ∀ input, x ≠ .block input
      · rw [(stream_control rounds fuel s m x hx e1).1]
        exact h1
      · push Not at hx
        obtain ⟨i, rfl⟩ := hx
        simp only [event, Except.map] at e1
        split at e1
        · cases e1
        · rename_i a ha
          cases e1
          obtain ⟨_, sent, ⟨l2, _, l4, _⟩, l6⟩ := processAudio_blind rounds fuel i s.1 s.1 a a ⟨rfl, rfl, rfl⟩ ha ha
          rw [hb i (by simp [EnvelopeEvent.blocks])] at l6
          have : stream (a, s.2) = stream s ++ sent := by
            unfold stream
            simp only [l2, l4, List.append_assoc]
          rw [this]
          exact h1.append l6
    refine ih m s' (fun b h => hb b ?_) hm e2
    unfold EnvelopeEvent.blocks at h ⊢
    rw [List.filterMap_cons]
    split
    · exact h
    · exact List.mem_cons_of_mem _ h

end EnvelopeNode
end Rawdio
