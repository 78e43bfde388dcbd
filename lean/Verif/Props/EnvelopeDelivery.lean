import Verif.Lemmas.EnvelopeDelivery
import Verif.Props.Envelope

/-!
# The reports of an envelope node (C78)
-/

namespace Rawdio
namespace EnvelopeNode

/-- C78: when the same blocks have been processed, what has been reported does not depend on when the reports were
collected.  In any two histories with the same blocks, what has been taken followed by what is about to be taken is
the same list. -/
theorem C78_same_reports (e : EnvelopeNode)
    (rounds fuel : Nat) (xs ys : List EnvelopeEvent)
    (hb : EnvelopeEvent.blocks xs = EnvelopeEvent.blocks ys) (s t : EnvelopeNode × List EnvelopeNotification)
    (hx : e.history rounds fuel xs = .ok s) (hy : e.history rounds fuel ys = .ok t) :
    s.2 ++ s.1.processNotifications.takeNotifications.2 = t.2 ++ t.1.processNotifications.takeNotifications.2 := by
  have := (history_blind rounds fuel xs ys (e, []) (e, []) s t ⟨rfl, rfl, rfl⟩ rfl hb hx hy).2
  unfold stream at this
  simpa [processNotifications, takeNotifications] using this

/-- C78: collecting and taking at the end of a history yields everything, and leaves nothing to be taken again. -/
theorem C78_taken_once (e : EnvelopeNode) (rounds fuel : Nat) (xs : List EnvelopeEvent)
    (s t : EnvelopeNode × List EnvelopeNotification)
    (hx : e.history rounds fuel (xs ++ [.poll, .take]) = .ok s)
    (hy : e.history rounds fuel (xs ++ [.poll, .take, .poll, .take]) = .ok t) :
    s.1.channel = [] ∧ s.1.notifications = [] ∧ t.2 = s.2 := by
  unfold history at hx hy
  rw [List.foldlM_append] at hx hy
  obtain ⟨m, e1, e2⟩ := bind_ok hx
  obtain ⟨m', e1', e2'⟩ := bind_ok hy
  rw [e1] at e1'
  cases e1'
  cases e2
  cases e2'
  exact ⟨rfl, rfl, by simp [processNotifications, takeNotifications]⟩

/-- C78: what has been taken is, for every notification in turn, one report for each channel in the order of the
channels, the last of them possibly cut short. -/
theorem C78_whole_groups (sr cc a r : Nat) (f : ℚ) (e : EnvelopeNode) (he : new sr cc a r f = .ok e)
    (rounds fuel : Nat) (xs : List EnvelopeEvent) (s : EnvelopeNode × List EnvelopeNotification)
    (hb : ∀ b ∈ EnvelopeEvent.blocks xs, b.channelCount = cc) (hx : e.history rounds fuel xs = .ok s) :
    ∃ groups : List (List ℝ), (∀ g ∈ groups, g.length = cc) ∧ s.2 <+: (groups.map reportsOf).flatten := by
  have h0 : Groups cc (stream (e, [])) := by
    unfold new at he
    obtain ⟨p, _, he⟩ := bind_ok he
    cases he
    exact Groups.nil cc
  obtain ⟨g, h1, h2⟩ := history_groups rounds fuel cc xs (e, []) s hb h0 hx
  refine ⟨g, h1, ?_⟩
  rw [← h2]
  unfold stream
  exact ⟨s.1.notifications ++ s.1.channel, by simp⟩

/-- A mono meter that reports every second frame: two blocks, collected once at the end, and collected after each
block. -/
example : ∃ (e : EnvelopeNode) (s t : EnvelopeNode × List EnvelopeNotification), new 2 1 0 0 1 = .ok e ∧
    e.history 2 4 [.block monoInput, .poll, .take, .poll, .take] = .ok s ∧
    e.history 2 4 [.poll, .take, .block monoInput] = .ok t ∧ (∃ p, s.2 = [⟨0, p⟩]) ∧ t.2 = [] ∧
    t.2 ++ t.1.processNotifications.takeNotifications.2 = s.2 := by
  obtain ⟨e, e1, e2, e3, _, _⟩ := new_ok 2 1 0 0 1 (by omega) (by norm_num)
  have hno : e.notifications = [] := by
    unfold new at e1
    obtain ⟨p, _, he⟩ := bind_ok e1
    cases he
    rfl
  have hn : e.notification.samplesUntilNextNotification = 2 := by
    unfold Periodic.samplesUntilNextNotification
    rw [e2.notification.next]
    norm_num
    rfl
  obtain ⟨e', ps, d1, _, d3, d4, _, d5, _⟩ := C51_what_is_inspected e monoInput rfl (2 / 1) 0 e2 4 0
    (by norm_num [monoInput, Buf.frameCount]) (by simp [monoInput, Buf.channelCount])
    (by rw [hn]; simp [monoInput, Buf.channelCount, Buf.frameCount])
    (by rw [e3]; simp [monoInput, Buf.channelCount])
  have d5 := (d5 (by norm_num [monoInput, Buf.frameCount])).1
  have h0 : e.processNotifications.takeNotifications.1 = e := by
    unfold processNotifications takeNotifications
    obtain ⟨_, _, _, _, _⟩ := e
    simp only at e3 hno
    subst e3
    subst hno
    rfl
  refine ⟨e, (e'.processNotifications.takeNotifications.1.processNotifications.takeNotifications.1,
    [⟨0, (ps[0]?).getD 0⟩]), (e', []), e1, ?_, ?_, ⟨_, rfl⟩, rfl, ?_⟩
  · unfold history
    simp only [List.foldlM_cons, List.foldlM_nil, event, d1, Except.map, bind, Except.bind, pure, Except.pure]
    congr 2
    simp [processNotifications, takeNotifications, d4, hno, d5, e3, monoInput, Buf.channelCount]
  · unfold history
    simp only [List.foldlM_cons, List.foldlM_nil, event, bind, Except.bind, pure, Except.pure, h0, d1, Except.map]
    simp [processNotifications, takeNotifications, e3, hno]
  · simp [processNotifications, takeNotifications, d4, hno, d5, e3, monoInput, Buf.channelCount]

end EnvelopeNode
end Rawdio
