import Verif.Lemmas.RecorderSpec

/-! # Properties of the recorder (C43, C44, C65) -/

namespace Rawdio
namespace Recorder

variable {S : Type} [Zero S]

/-- A block of `n` frames and one channel for examples: frame `f` is `first + f`. -/
def exampleInput (first n : Nat) : Grid Int := ⟨1, n, fun _ f => first + f⟩

theorem example_block_ok (first n : Nat) (hn : 0 < n) (h : n ≤ 100000) (start : Int) (hs : 0 ≤ start) :
    RecorderAction.Ok 48000 1 (.block (exampleInput first n) start) :=
  ⟨hs, hn, by change n * 48000 ≤ _; omega, le_refl _⟩

/-! ## C43: what is recorded -/

/-- C43: whatever has been done, the frames that should have been recorded are, in order and without gap
or repetition, those of the recordings taken, then those of the recording not yet taken, then `rest`, which
is still on its way. -/
theorem C43_recording_exact {sr ch first fuel : Nat} (hsr : 0 < sr) (as : List (RecorderAction S))
    (hok : ∀ a ∈ as, a.Ok sr ch) {r : Recorder S} {out : List (Grid S)}
    (h : (new sr ch first : Recorder S).run fuel as = .ok (r, out)) :
    ∃ rest, (Recorded.none.run sr ch as).frames =
      out.flatMap Grid.allFrames ++ (r.currentRecording.map Grid.allFrames).getD [] ++ rest := by
  have ht := run_tracks hsr as (new_tracks sr ch first) hok h
  refine ⟨r.processor.stream ch, ?_⟩
  rw [ht.frames, List.nil_append]
  have : r.frames ch = (r.currentRecording.map Grid.allFrames).getD [] := by
    have hr := ht.recordingOk
    unfold Recorder.frames
    cases hc : r.currentRecording with
    | none => rfl
    | some g => simp [Grid.allFrames, hr g hc]
  rw [this]

/-- C43: once the notifications have been processed, less than a buffer of 4096 frames is still on its way,
and nothing at all when recording has stopped. -/
theorem C43_collected {sr ch first fuel : Nat} (hsr : 0 < sr) (as : List (RecorderAction S))
    (hok : ∀ a ∈ as, a.Ok sr ch) {r : Recorder S} {out : List (Grid S)}
    (h : (new sr ch first : Recorder S).run fuel (as ++ [.notifications]) = .ok (r, out)) :
    ∃ rest, (Recorded.none.run sr ch as).frames =
        out.flatMap Grid.allFrames ++ (r.currentRecording.map Grid.allFrames).getD [] ++ rest ∧
      rest.length < 4096 ∧ ((Recorded.none.run sr ch as).recording = false → rest = []) := by
  have hok' : ∀ a ∈ as ++ [.notifications], a.Ok sr ch := by
    intro a ha
    rcases List.mem_append.mp ha with ha | ha
    · exact hok a ha
    · rw [List.mem_singleton] at ha; subst ha; trivial
  have ht := run_tracks hsr _ (new_tracks sr ch first) hok' h
  have hid := run_idle _ (r := (new sr ch first : Recorder S)) (fun _ => rfl) h
  obtain ⟨r1, o1, o2, -, h2, -⟩ := run_append as [.notifications] h
  unfold run at h2
  obtain ⟨⟨r2, o⟩, h3, h4⟩ := bind_ok h2
  injection h4 with h4
  injection h4 with h4 _
  subst h4
  obtain ⟨hn, -, -, -⟩ := notifications_step h3
  have hq : (Recorded.none.run sr ch (as ++ [.notifications]) : Recorded S) = Recorded.none.run sr ch as := by
    rw [Recorded.run_append]; rfl
  rw [hq] at ht
  have hstream : r2.processor.stream ch = r2.processor.current.framesIn ch 0 r2.processor.position := by
    unfold RecorderProcessor.stream
    rw [hn]
    rfl
  refine ⟨r2.processor.stream ch, ?_, ?_, ?_⟩
  · rw [ht.frames, List.nil_append]
    have : r2.frames ch = (r2.currentRecording.map Grid.allFrames).getD [] := by
      have hr := ht.recordingOk
      unfold Recorder.frames
      cases hc : r2.currentRecording with
      | none => rfl
      | some g => simp [Grid.allFrames, hr g hc]
    rw [this]
  · rw [hstream]
    simpa [Grid.framesIn, recorderBufferSize] using ht.shape.position
  · intro hf
    rw [hstream, hid (ht.recording.trans hf)]
    rfl

/-- C43: the recordings taken up to and including the one taken after recording has stopped and the
notifications have been processed are exactly what should have been recorded. -/
theorem C43_taken {sr ch first fuel : Nat} (hsr : 0 < sr) (as : List (RecorderAction S))
    (hok : ∀ a ∈ as, a.Ok sr ch) (hstop : (Recorded.none.run sr ch as : Recorded S).recording = false)
    {r : Recorder S} {out : List (Grid S)}
    (h : (new sr ch first : Recorder S).run fuel (as ++ [.notifications, .takeRecording]) = .ok (r, out)) :
    out.flatMap Grid.allFrames = (Recorded.none.run sr ch as).frames := by
  have hsplit : as ++ [.notifications, .takeRecording] = (as ++ [.notifications]) ++ [.takeRecording] := by simp
  rw [hsplit] at h
  obtain ⟨r1, o1, o2, h1, h2, rfl⟩ := run_append _ [.takeRecording] h
  obtain ⟨rest, e1, -, e3⟩ := C43_collected hsr as hok h1
  rw [e3 hstop, List.append_nil] at e1
  rw [e1, List.flatMap_append]
  have : o2 = r1.currentRecording.toList ++ [] := by
    unfold run at h2
    simp only [step, run, bind, Except.bind] at h2
    injection h2 with h2
    injection h2 with _ h2
    exact h2.symm
  rw [this]
  cases r1.currentRecording <;> simp

/-- C43: a recorder that is asked to record, processes blocks of any lengths, is asked to stop at a time
within a further block, and is then asked for its recording, gives every frame of the blocks, and of the
last block those before the stop. -/
theorem C43_start_to_stop {sr ch first fuel : Nat} (hsr : 0 < sr) (h32 : sr ≤ 2 ^ 32)
    (blocks : List (RecorderAction S)) (hok : ∀ a ∈ blocks, a.Ok sr ch)
    (hb : ∀ a ∈ blocks, a = .notifications ∨ ∃ i s, a = .block i s)
    (last : Grid S) (start t : Int) (hlast : RecorderAction.Ok sr ch (.block last start)) (ht : 0 ≤ t)
    (hend : t < start + Timestamp.fromSamples (last.frames : ℚ) sr)
    {r : Recorder S} {out : List (Grid S)}
    (h : (new sr ch first : Recorder S).run fuel
      (.recordNow :: blocks ++ [.stopAt t, .block last start] ++ [.notifications, .takeRecording]) =
        .ok (r, out)) :
    out.flatMap Grid.allFrames =
      (blocks.flatMap (fun a => match a with
        | .block input _ => input.framesIn ch 0 input.frames
        | _ => [])) ++ last.framesIn ch 0 (frameOf start t sr) := by
  have hS : (Recorded.none.run sr ch [.recordNow] : Recorded S).Starting := Or.inr ⟨rfl, rfl⟩
  obtain ⟨s1, s2⟩ := hS.run hsr h32 blocks hok hb
  obtain ⟨l1, l2⟩ := s1.stop (ch := ch) hsr h32 hlast.1 hlast.2.1 ht hend
  have hrun : (Recorded.none.run sr ch (.recordNow :: blocks ++ [.stopAt t, .block last start]) : Recorded S) =
      ((((Recorded.none.run sr ch [.recordNow]).run sr ch blocks).step sr ch (.stopAt t)).block sr ch
        last start) := by
    rw [Recorded.run_append]
    rfl
  rw [C43_taken hsr _ _ _ h, hrun, l2, s2]
  · rfl
  · intro a ha
    rcases List.mem_append.mp ha with ha | ha
    · rcases List.mem_cons.mp ha with rfl | ha
      · trivial
      · exact hok a ha
    · simp only [List.mem_cons, List.not_mem_nil, or_false] at ha
      rcases ha with rfl | rfl
      · trivial
      · exact hlast
  · rw [hrun]
    exact l1

/-! ## C43: notifications often enough -/

/-- C43: a pass of notifications after every block is often enough.  With blocks of at most 4096 frames and
at most eight requests between them, the recorder never panics, never waits and always returns, however
long it is used. -/
theorem C43_keeps_up {sr ch first fuel : Nat} (hsr : 0 < sr) (h32 : sr ≤ 2 ^ 32) (hf : 4096 ≤ fuel)
    (rounds : List (Round S))
    (hr : ∀ x ∈ rounds, x.requests.length ≤ 8 ∧ (∀ a ∈ x.requests, a.IsRequest) ∧
      RecorderAction.Ok sr ch (.block x.input x.start) ∧ x.input.frames ≤ 4096) :
    ∃ r out, (new sr ch first : Recorder S).run fuel (rounds.flatMap Round.actions) = .ok (r, out) :=
  rounds_work hsr h32 hf rounds
    ⟨rfl, by simp [new, RecorderProcessor.new, recorderBufferCount, EventProcessor.withCapacity],
      by simp [new, RecorderProcessor.new, EventProcessor.withCapacity],
      by simp [new, RecorderProcessor.new, EventProcessor.withCapacity],
      by simp [new, RecorderProcessor.new, EventProcessor.withCapacity]⟩
    (new_tracks sr ch first) hr

/-- The rounds of the examples: record, 3000 frames; 3000 frames; stop at frame 500 of the block, 3000
frames. -/
def exampleRounds : List (Round Int) :=
  [⟨[.recordNow], exampleInput 0 3000, 0⟩, ⟨[], exampleInput 3000 3000, 268435456⟩,
   ⟨[.stopAt (536870912 + 44739243)], exampleInput 6000 3000, 536870912⟩]

theorem exampleRounds_ok : ∀ x ∈ exampleRounds, x.requests.length ≤ 8 ∧ (∀ a ∈ x.requests, a.IsRequest) ∧
    RecorderAction.Ok 48000 1 (.block x.input x.start) ∧ x.input.frames ≤ 4096 := by
  intro x hx
  simp only [exampleRounds, List.mem_cons, List.not_mem_nil, or_false] at hx
  rcases hx with rfl | rfl | rfl
  · exact ⟨by simp, by simp [RecorderAction.IsRequest],
      example_block_ok _ _ (by decide) (by decide) _ (by decide), by simp [exampleInput]⟩
  · exact ⟨by simp, by simp,
      example_block_ok _ _ (by decide) (by decide) _ (by decide), by simp [exampleInput]⟩
  · exact ⟨by simp, by simp [RecorderAction.IsRequest],
      example_block_ok _ _ (by decide) (by decide) _ (by decide), by simp [exampleInput]⟩

theorem example_keeps_up : ∃ r out, (new 48000 1 0 : Recorder Int).run 4096
    (exampleRounds.flatMap Round.actions) = .ok (r, out) :=
  C43_keeps_up (by decide) (by decide) (le_refl _) exampleRounds exampleRounds_ok

theorem exampleRounds_actions_ok : ∀ a ∈ exampleRounds.flatMap Round.actions, a.Ok 48000 1 := by
  intro a ha
  obtain ⟨x, hx, ha⟩ := List.mem_flatMap.mp ha
  obtain ⟨-, h2, h3, -⟩ := exampleRounds_ok x hx
  rcases List.mem_append.mp ha with ha | ha
  · have := h2 a ha
    cases a <;> first | trivial | exact absurd this id
  · simp only [List.mem_cons, List.not_mem_nil, or_false] at ha
    rcases ha with rfl | rfl
    · exact h3
    · trivial

/-- The example of `C43_keeps_up` and `C43_recording_exact`: a run that exists, and what it recorded. -/
example : ∃ r out rest, (new 48000 1 0 : Recorder Int).run 4096 (exampleRounds.flatMap Round.actions) =
      .ok (r, out) ∧
    (Recorded.none.run 48000 1 (exampleRounds.flatMap Round.actions)).frames =
      out.flatMap Grid.allFrames ++ (r.currentRecording.map Grid.allFrames).getD [] ++ rest := by
  obtain ⟨r, out, h⟩ := example_keeps_up
  obtain ⟨rest, h2⟩ := C43_recording_exact (by decide) _ exampleRounds_actions_ok h
  exact ⟨r, out, rest, h, h2⟩

/-- The example of `C43_start_to_stop`, and with it of `C43_taken` and `C43_collected`: the rounds above
are such a history, and the recording has the two blocks and the third one up to the stop. -/
example : ∃ r out, (new 48000 1 0 : Recorder Int).run 4096
      (.recordNow :: [.block (exampleInput 0 3000) 0, .notifications,
          .block (exampleInput 3000 3000) 268435456, .notifications] ++
        [.stopAt (536870912 + 44739243), .block (exampleInput 6000 3000) 536870912] ++
        [.notifications, .takeRecording]) = .ok (r, out) ∧
    out.flatMap Grid.allFrames = (exampleInput 0 3000).framesIn 1 0 3000 ++
      ((exampleInput 3000 3000).framesIn 1 0 3000 ++ []) ++
      (exampleInput 6000 3000).framesIn 1 0 (frameOf 536870912 (536870912 + 44739243) 48000) := by
  obtain ⟨r, out, h⟩ := example_keeps_up
  have h2 : r.run 4096 [.takeRecording] =
      .ok ({ r with currentRecording := none }, r.currentRecording.toList ++ []) := rfl
  have h3 := run_ok_append _ _ h h2
  refine ⟨_, _, h3, ?_⟩
  exact C43_start_to_stop (by decide) (by decide)
    [.block (exampleInput 0 3000) 0, .notifications, .block (exampleInput 3000 3000) 268435456, .notifications]
    (by
      intro a ha
      simp only [List.mem_cons, List.not_mem_nil, or_false] at ha
      rcases ha with rfl | rfl | rfl | rfl
      · exact example_block_ok _ _ (by decide) (by decide) _ (by decide)
      · trivial
      · exact example_block_ok _ _ (by decide) (by decide) _ (by decide)
      · trivial)
    (by simp)
    (exampleInput 6000 3000) 536870912 (536870912 + 44739243)
    (example_block_ok _ _ (by decide) (by decide) _ (by decide)) (by decide)
    (by
      have h1 : Timestamp.fromSamples ((3000 : Nat) : ℚ) 48000 = 268435456 := by
        norm_num [Timestamp.fromSamples, Timestamp.fromSeconds, Timestamp.one]
        exact_mod_cast Timestamp.roundHalfEven_int 268435456
      change (536870912 + 44739243 : Int) < 536870912 + Timestamp.fromSamples ((3000 : Nat) : ℚ) 48000
      rw [h1]
      decide) h3

/-! ## C44: nobody collects the notifications -/

/-- C44, violated: a recorder that is asked to record, and whose notifications are not processed, makes the
audio thread wait for the control thread once 131072 frames have been recorded (2.7 seconds at 48 kHz),
whatever the blocks. -/
theorem C44_never_waits_violated {sr ch first fuel : Nat} (hsr : 0 < sr) (h32 : sr ≤ 2 ^ 32)
    (blocks : List (Grid S × Int)) (hok : ∀ b ∈ blocks, RecorderAction.Ok sr ch (.block b.1 b.2))
    (hf : ∀ b ∈ blocks, b.1.frames ≤ fuel) (htotal : 131072 ≤ (blocks.map (fun b => b.1.frames)).sum) :
    (new sr ch first : Recorder S).run fuel (.recordNow :: blocks.map (fun b => .block b.1 b.2)) =
      .error .block := by
  cases blocks with
  | nil => simp at htotal
  | cons b bs =>
    obtain ⟨k1, k2, k3, k4⟩ := hok b List.mem_cons_self
    obtain ⟨r1, e1, r2, e2, e3⟩ := first_block (ch := ch) (first := first) (fuel := fuel) hsr h32 b.1 b.2 k1 k2 k3
    have := e2.blocks (fuel := fuel) (b :: bs) (by decide) (fun x hx =>
      ⟨(hok x hx).2.1, (hok x hx).2.2.2, hf x hx⟩)
    rw [if_neg (by unfold totalFrames; omega)] at this
    unfold run
    refine (ok_bind e1).trans ?_
    simp only [Option.toList]
    have hrun : r1.run fuel ((b :: bs).map (fun b => .block b.1 b.2)) = .error .block := by
      rw [← this]
      simp only [List.map_cons]
      unfold run
      rw [e3]
    rw [hrun]
    rfl

/-- The example: blocks of 512 frames, 256 of them. -/
example : (new 48000 1 0 : Recorder Int).run 512 (.recordNow ::
      (List.replicate 256 (exampleInput 0 512, (0 : Int))).map (fun b => .block b.1 b.2)) = .error .block :=
  C44_never_waits_violated (by decide) (by decide) _
    (by
      intro b hb
      rw [List.eq_of_mem_replicate hb]
      exact example_block_ok _ _ (by decide) (by decide) _ (by decide))
    (by intro b hb; rw [List.eq_of_mem_replicate hb]; exact le_refl _)
    (by rw [List.map_replicate, List.sum_replicate]; decide)

/-- C44, what holds: below 131072 frames the audio thread does not wait, and (`C43_keeps_up`) it never does
when the notifications are processed after every block. -/
theorem C44_never_waits_partial {sr ch first fuel : Nat} (hsr : 0 < sr) (h32 : sr ≤ 2 ^ 32)
    (blocks : List (Grid S × Int)) (hok : ∀ b ∈ blocks, RecorderAction.Ok sr ch (.block b.1 b.2))
    (hf : ∀ b ∈ blocks, b.1.frames ≤ fuel) (htotal : (blocks.map (fun b => b.1.frames)).sum < 131072) :
    ∃ r, (new sr ch first : Recorder S).run fuel (.recordNow :: blocks.map (fun b => .block b.1 b.2)) =
      .ok (r, []) := by
  cases blocks with
  | nil => exact ⟨_, rfl⟩
  | cons b bs =>
    obtain ⟨k1, k2, k3, k4⟩ := hok b List.mem_cons_self
    obtain ⟨r1, e1, r2, e2, e3⟩ := first_block (ch := ch) (first := first) (fuel := fuel) hsr h32 b.1 b.2 k1 k2 k3
    have := e2.blocks (fuel := fuel) (b :: bs) (by decide) (fun x hx =>
      ⟨(hok x hx).2.1, (hok x hx).2.2.2, hf x hx⟩)
    rw [if_pos (by unfold totalFrames; omega)] at this
    obtain ⟨r', h1, -⟩ := this
    refine ⟨r', ?_⟩
    unfold run
    refine (ok_bind e1).trans ?_
    simp only [Option.toList]
    have hrun : r1.run fuel ((b :: bs).map (fun b => .block b.1 b.2)) = .ok (r', []) := by
      rw [← h1]
      simp only [List.map_cons]
      unfold run
      rw [e3]
    exact (ok_bind hrun).trans rfl

example : ∃ r, (new 48000 1 0 : Recorder Int).run 512 (.recordNow ::
      (List.replicate 255 (exampleInput 0 512, (0 : Int))).map (fun b => .block b.1 b.2)) = .ok (r, []) :=
  C44_never_waits_partial (by decide) (by decide) _
    (by
      intro b hb
      rw [List.eq_of_mem_replicate hb]
      exact example_block_ok _ _ (by decide) (by decide) _ (by decide))
    (by intro b hb; rw [List.eq_of_mem_replicate hb]; exact le_refl _)
    (by rw [List.map_replicate, List.sum_replicate]; decide)

/-! ## C65: `is_recording` -/

/-- C65: after a pass of notifications `is_recording` says whether the recorder is recording. -/
theorem C65_is_recording {sr ch first fuel : Nat} (hsr : 0 < sr) (as : List (RecorderAction S))
    (hok : ∀ a ∈ as, a.Ok sr ch) {r : Recorder S} {out : List (Grid S)}
    (h : (new sr ch first : Recorder S).run fuel (as ++ [.notifications]) = .ok (r, out)) :
    r.isRecording = (Recorded.none.run sr ch as : Recorded S).recording := by
  have hok' : ∀ a ∈ as ++ [.notifications], a.Ok sr ch := by
    intro a ha
    rcases List.mem_append.mp ha with ha | ha
    · exact hok a ha
    · rw [List.mem_singleton] at ha; subst ha; trivial
  have ht := run_tracks hsr _ (new_tracks sr ch first) hok' h
  obtain ⟨r1, o1, o2, -, h2, -⟩ := run_append as [.notifications] h
  unfold run at h2
  obtain ⟨⟨r2, o⟩, h3, h4⟩ := bind_ok h2
  injection h4 with h4
  injection h4 with h4 _
  subst h4
  obtain ⟨hn, -, -, -⟩ := notifications_step h3
  have hq : (Recorded.none.run sr ch (as ++ [.notifications]) : Recorded S) = Recorded.none.run sr ch as := by
    rw [Recorded.run_append]; rfl
  have hs := ht.shown
  unfold RecorderProcessor.willShow at hs
  rw [hn] at hs
  rw [← hq, ← ht.recording]
  exact hs

/-- The example: after the rounds above, less their last pass of notifications. -/
example : ∃ r out, (new 48000 1 0 : Recorder Int).run 4096
      (([.recordNow, .block (exampleInput 0 3000) 0] : List (RecorderAction Int)) ++ [.notifications]) =
        .ok (r, out) ∧
    r.isRecording = (Recorded.none.run 48000 1
      ([.recordNow, .block (exampleInput 0 3000) 0] : List (RecorderAction Int))).recording := by
  obtain ⟨r, out, h⟩ := C43_keeps_up (S := Int) (sr := 48000) (ch := 1) (first := 0) (by decide) (by decide)
    (le_refl 4096) [⟨[.recordNow], exampleInput 0 3000, 0⟩]
    (fun x hx => exampleRounds_ok x (by simp only [List.mem_singleton] at hx; subst hx; exact List.mem_cons_self))
  refine ⟨r, out, h, C65_is_recording (by decide) _ ?_ h⟩
  intro a ha
  simp only [List.mem_cons, List.not_mem_nil, or_false] at ha
  rcases ha with rfl | rfl
  · trivial
  · exact example_block_ok _ _ (by decide) (by decide) _ (by decide)

end Recorder
end Rawdio
