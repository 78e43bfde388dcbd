import Verif.Lemmas.RecorderStall

/-! # What the specification of recording says about plain histories -/

namespace Rawdio

variable {S : Type}

open EventProcessor

/-- The frames of the blocks of a history. -/
def inputFrames (ch : Nat) (as : List (RecorderAction S)) : List (List S) :=
  as.flatMap (fun a => match a with
    | .block input _ => input.framesIn ch 0 input.frames
    | _ => [])

namespace Recorded

/-- Asked to record, with effect from the next block at the latest. -/
def Starting (q : Recorded S) : Prop :=
  (q.recording = true ∧ q.waiting = []) ∨ (q.recording = false ∧ q.waiting = [⟨0, true⟩])

theorem blockEnd_pos {sr n : Nat} (hsr : 0 < sr) (h32 : sr ≤ 2 ^ 32) {start : Int} (h0 : 0 ≤ start)
    (hn : 0 < n) : 0 < start + Timestamp.fromSamples (n : ℚ) sr := by
  have := Recorder.fromSamples_pos hsr h32 hn
  omega

theorem Starting.block {sr ch : Nat} (hsr : 0 < sr) (h32 : sr ≤ 2 ^ 32) {q : Recorded S} (h : q.Starting)
    {input : Grid S} {start : Int} (h0 : 0 ≤ start) (hn : 0 < input.frames) :
    (q.block sr ch input start).Starting ∧
      (q.block sr ch input start).frames = q.frames ++ input.framesIn ch 0 input.frames := by
  have hend := blockEnd_pos hsr h32 h0 hn
  have hz := RecorderProcessor.frameOf_zero h0 sr
  rcases h with ⟨h1, h2⟩ | ⟨h1, h2⟩
  · refine ⟨Or.inl ⟨?_, ?_⟩, ?_⟩
    · simp [Recorded.block, h1, h2]
    · simp [Recorded.block, h2]
    · simp only [Recorded.block, h1, h2, List.filter_nil, List.map_nil]
      rw [List.filter_eq_self.mpr (by intro a _; simp [recordedAt])]
      simp [Grid.framesIn, List.range_eq_range']
  · have hd : decide ((0 : Int) < start + Timestamp.fromSamples (input.frames : ℚ) sr) = true :=
      decide_eq_true hend
    have hd' : decide (start + Timestamp.fromSamples (input.frames : ℚ) sr ≤ (0 : Int)) = false :=
      decide_eq_false (by omega)
    refine ⟨Or.inl ⟨?_, ?_⟩, ?_⟩
    · simp [Recorded.block, h2, hend]
    · simp [Recorded.block, h2, hend]
    · simp only [Recorded.block, h1, h2, List.filter_cons, hd, if_true, List.filter_nil, List.map_cons,
        List.map_nil, hz]
      rw [List.filter_eq_self.mpr (by intro a _; simp [recordedAt])]
      simp [Grid.framesIn, List.range_eq_range']

theorem Starting.run {sr ch : Nat} (hsr : 0 < sr) (h32 : sr ≤ 2 ^ 32) (as : List (RecorderAction S)) :
    ∀ {q : Recorded S}, q.Starting → (∀ a ∈ as, a.Ok sr ch) →
    (∀ a ∈ as, a = .notifications ∨ ∃ i s, a = .block i s) →
    (q.run sr ch as).Starting ∧ (q.run sr ch as).frames = q.frames ++ inputFrames ch as := by
  induction as with
  | nil => intro q h _ _; exact ⟨h, by simp [Recorded.run, inputFrames]⟩
  | cons a as ih =>
    intro q h hok hk
    have hok' : ∀ a ∈ as, a.Ok sr ch := fun x hx => hok x (List.mem_cons_of_mem _ hx)
    have hk' : ∀ a ∈ as, a = .notifications ∨ ∃ i s, a = .block i s :=
      fun x hx => hk x (List.mem_cons_of_mem _ hx)
    rcases hk a List.mem_cons_self with rfl | ⟨i, s, rfl⟩
    · exact ih (q := q) h hok' hk'
    · obtain ⟨b1, b2, -, -⟩ := hok _ List.mem_cons_self
      obtain ⟨c1, c2⟩ := h.block (ch := ch) hsr h32 b1 b2
      obtain ⟨d1, d2⟩ := ih c1 hok' hk'
      refine ⟨d1, ?_⟩
      have : q.run sr ch (.block i s :: as) = (q.block sr ch i s).run sr ch as := rfl
      rw [this, d2, c2, List.append_assoc]
      rfl

theorem filter_lt (n k : Nat) (h : k ≤ n) : (List.range n).filter (fun f => decide (f < k)) = List.range k := by
  obtain ⟨m, rfl⟩ := Nat.exists_eq_add_of_le h
  rw [List.range_add, List.filter_append, List.filter_eq_self.mpr, List.filter_eq_nil_iff.mpr, List.append_nil]
  · intro x hx
    obtain ⟨y, -, rfl⟩ := List.mem_map.mp hx
    simp
  · intro x hx
    simpa using List.mem_range.mp hx

/-- The block with the stop. -/
theorem Starting.stop {sr ch : Nat} (hsr : 0 < sr) (h32 : sr ≤ 2 ^ 32) {q : Recorded S} (h : q.Starting)
    {input : Grid S} {start t : Int} (h0 : 0 ≤ start) (hn : 0 < input.frames) (ht : 0 ≤ t)
    (hend : t < start + Timestamp.fromSamples (input.frames : ℚ) sr) :
    ((q.step sr ch (.stopAt t)).block sr ch input start).recording = false ∧
      ((q.step sr ch (.stopAt t)).block sr ch input start).frames =
        q.frames ++ input.framesIn ch 0 (frameOf start t sr) := by
  have hend0 := blockEnd_pos hsr h32 h0 hn
  have hz := RecorderProcessor.frameOf_zero h0 sr
  have hlt : frameOf start t sr < input.frames := EventProcessor.frameOf_lt hsr hn hend
  have hd0 : decide ((0 : Int) < start + Timestamp.fromSamples (input.frames : ℚ) sr) = true :=
    decide_eq_true hend0
  have hd : decide (t < start + Timestamp.fromSamples (input.frames : ℚ) sr) = true :=
    decide_eq_true hend
  rcases h with ⟨h1, h2⟩ | ⟨h1, h2⟩
  · refine ⟨?_, ?_⟩
    · simp [Recorded.block, Recorded.step, enqueue, h2, hend]
    · simp only [Recorded.block, Recorded.step, h1, h2, enqueue, List.filter_cons, hd, if_true,
        List.filter_nil, List.map_cons, List.map_nil]
      have : recordedAt true [(frameOf start t sr, false)] = fun f => decide (f < frameOf start t sr) := by
        funext f
        by_cases hf : frameOf start t sr ≤ f
        · simp [recordedAt, hf]
        · simp [recordedAt, hf]
          omega
      rw [this, filter_lt _ _ hlt.le]
      simp [Grid.framesIn, List.range_eq_range']
  · refine ⟨?_, ?_⟩
    · simp [Recorded.block, Recorded.step, enqueue, h2, hend, ht, hend0]
    · simp only [Recorded.block, Recorded.step, h1, h2, enqueue, ht, List.filter_cons, hd, hd0, if_true,
        List.filter_nil, List.map_cons, List.map_nil, hz]
      have : recordedAt false [(0, true), (frameOf start t sr, false)] =
          fun f => decide (f < frameOf start t sr) := by
        funext f
        by_cases hf : frameOf start t sr ≤ f
        · simp [recordedAt, hf]
        · simp [recordedAt, hf]
          omega
      rw [this, filter_lt _ _ hlt.le]
      simp [Grid.framesIn, List.range_eq_range']

theorem run_append (sr ch : Nat) (q : Recorded S) (as bs : List (RecorderAction S)) :
    q.run sr ch (as ++ bs) = (q.run sr ch as).run sr ch bs := List.foldl_append

end Recorded

namespace Recorder

theorem rounds_work [Zero S] {sr ch fuel : Nat} (hsr : 0 < sr) (h32 : sr ≤ 2 ^ 32) (hf : 4096 ≤ fuel)
    (rounds : List (Round S)) :
    ∀ {r : Recorder S}, r.Rested → ∀ {taken : List (List S)} {q : Recorded S}, r.Tracks sr ch taken q →
    (∀ x ∈ rounds, x.requests.length ≤ 8 ∧ (∀ a ∈ x.requests, a.IsRequest) ∧
      RecorderAction.Ok sr ch (.block x.input x.start) ∧ x.input.frames ≤ 4096) →
    ∃ r' out, r.run fuel (rounds.flatMap Round.actions) = .ok (r', out) := by
  induction rounds with
  | nil => intro r _ _ _ _ _; exact ⟨r, [], rfl⟩
  | cons x xs ih =>
    intro r hr taken q ht hx
    obtain ⟨x1, x2, x3, x4⟩ := hx x List.mem_cons_self
    obtain ⟨r1, o1, a1, a2, taken', q', a3⟩ := round_works hsr h32 hf x.requests x.input x.start x3 x4
      hr.asked (by omega) x2 ht
    obtain ⟨r2, o2, b1⟩ := ih a2 a3 (fun y hy => hx y (List.mem_cons_of_mem _ hy))
    refine ⟨r2, o1 ++ o2, ?_⟩
    rw [List.flatMap_cons]
    exact run_ok_append _ _ a1 b1

end Recorder
end Rawdio
