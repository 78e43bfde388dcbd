import Verif.Lemmas.FileRender
import Verif.Props.Chain

/-!
# WAV files (C84)
-/

namespace Rawdio
namespace Wav

open Buf Processor Chain

variable {S P C : Type}

/-! ## Samples -/

/-- C84: no sample is refused by the file, not even one that is not a number. -/
theorem C84_in_range (v : F32) (file : List Int) : writeSample file (encode v) = .ok (file ++ [encode v]) ∧
    |encode v| ≤ 2 ^ 23 - 1 :=
  ⟨writeSample_ok file v, encode_le v⟩

/-- C84: a sample that is written and read again has moved by at most 2^-22, once it is limited to the numbers from -1
to 1. -/
theorem C84_sample_error (x : ℚ) : |decode 24 (encode (.finite x)) - max (-1) (min 1 x)| ≤ 1 / 2 ^ 22 := by
  have h1 := (toInt_spec (clamped_le x)).2
  have h2 := decode_error (encode_le (.finite x))
  have e : encode (.finite x) = toInt 8388607 (.finite (max (-1) (min 1 x))) := by
    unfold encode
    rw [maxValue_24]
    rfl
  rw [← e] at h1
  generalize decode 24 (encode (.finite x)) = d at *
  generalize (encode (.finite x) : ℚ) = n at *
  generalize max (-1) (min 1 x) = y at *
  have h1' := abs_le.mp h1
  have h2' := abs_le.mp h2
  rw [abs_le]
  constructor <;> linarith

/-- C84: a number of a 24 bit file that is read and written again is the same, but the lowest of all, which becomes the
next one. -/
theorem C84_resave_sample (n : Int) (h1 : -2 ^ 23 ≤ n) (h2 : n < 2 ^ 23) :
    encode (.finite (decode 24 n)) = max n (-(2 ^ 23 - 1)) := by
  have pos : ∀ m : Nat, 0 < m → m ≤ 8388607 → encode (.finite (decode 24 m)) = m ∧
      encode (.finite (decode 24 (-m))) = -m := by
    intro m h0 hm
    obtain ⟨p1, p2, p3⟩ := product_pos m h0 hm
    have c1 : max (-1) (min 1 (decode 24 m)) = decode 24 m := by
      rw [min_eq_right p2, max_eq_right (by linarith)]
    have c2 : max (-1) (min 1 (-decode 24 m)) = -decode 24 m := by
      rw [min_eq_right (by linarith), max_eq_right (by linarith)]
    have t : toInt 8388607 (.finite (decode 24 m)) = m := by
      simp only [toInt]
      push_cast
      rw [p3, if_pos (by positivity), Int.floor_natCast]
      omega
    have hb : |Float32.round (decode 24 m * ((8388607 : ℤ) : ℚ))| ≤ 2 ^ 30 := by
      push_cast
      rw [p3, abs_of_nonneg (by positivity)]
      have : (m : ℚ) ≤ 8388607 := by exact_mod_cast hm
      linarith
    constructor
    · unfold encode clamp
      rw [maxValue_24]
      simp only
      rw [c1, t]
    · unfold encode clamp
      rw [decode_neg, maxValue_24]
      simp only
      rw [c2, toInt_neg _ _ hb, t]
  have hcases : n = 0 ∨ (∃ m : Nat, 0 < m ∧ m ≤ 8388607 ∧ n = m) ∨ (∃ m : Nat, 0 < m ∧ m ≤ 8388607 ∧ n = -m) ∨
      n = -8388608 := by
    rcases lt_trichotomy n 0 with h | h | h
    · by_cases hn : n = -8388608
      · exact .inr (.inr (.inr hn))
      · exact .inr (.inr (.inl ⟨n.natAbs, by omega, by omega, by omega⟩))
    · exact .inl h
    · exact .inr (.inl ⟨n.natAbs, by omega, by omega, by omega⟩)
  rcases hcases with rfl | ⟨m, m0, m1, rfl⟩ | ⟨m, m0, m1, rfl⟩ | rfl
  · have : decode 24 0 = 0 := by
      have := decode_neg 24 0
      rw [neg_zero] at this
      linarith
    rw [this]
    simp [encode, clamp, toInt, Float32.round_zero]
  · rw [(pos m m0 m1).1]; omega
  · rw [(pos m m0 m1).2]; omega
  · -- the lowest number is less than -1
    have hd : decode 24 (-8388608) ≤ -1 := by
      have hM := product_pos 8388607 (by norm_num) (by norm_num)
      have : decode 24 8388608 ≥ 1 := by
        unfold decode
        rw [maxValue_24]
        push_cast
        have y1 := Float32.le_grid (u := 2 ^ ((0 : ℤ) - 52)) (y := 8388608 / 8388607) (by positivity) (2 ^ 52)
          (by norm_num)
        rw [← Float32.round64_eq (e := 0) (by norm_num) (by norm_num) (by norm_num)] at y1
        have y2 := Float32.grid_error (u := 2 ^ ((0 : ℤ) - 52)) (by positivity) (8388608 / 8388607)
        rw [← Float32.round64_eq (e := 0) (by norm_num) (by norm_num) (by norm_num)] at y2
        generalize Float64.round (8388608 / 8388607) = y at *
        norm_num at y1
        have y3 := (abs_le.mp y2).2
        norm_num at y3
        have x1 := Float32.le_grid (u := 2 ^ ((0 : ℤ) - 23)) (y := y) (by positivity) (2 ^ 23) (by norm_num; linarith)
        rw [← Float32.round_eq (e := 0) (by norm_num) (by norm_num; linarith) (by norm_num; linarith)] at x1
        norm_num at x1
        exact x1
      rw [show (-8388608 : ℤ) = -(8388608) by norm_num, decode_neg]
      linarith
    have hc : clamp (.finite (decode 24 (-8388608))) = .finite (-1) := by
      simp only [clamp]
      rw [min_eq_right (by linarith), max_eq_left hd]
    have hdec : decode 24 (8388607 : Nat) = 1 := by
      have h := product_pos 8388607 (by norm_num) (by norm_num)
      have h' := (pos 8388607 (by norm_num) (by norm_num)).1
      unfold decode
      rw [maxValue_24]
      push_cast
      rw [div_self (by norm_num)]
      have e1 : Float64.round 1 = 1 := by
        rw [Float32.round64_eq (e := 0) (by norm_num) (by norm_num) (by norm_num)]
        have := Float32.grid_near (u := 2 ^ ((0 : ℤ) - 52)) (y := 1) (by positivity) (2 ^ 52) (by norm_num)
        rw [this]
        norm_num
      have e2 : Float32.round 1 = 1 := by
        rw [Float32.round_eq (e := 0) (by norm_num) (by norm_num) (by norm_num)]
        have := Float32.grid_near (u := 2 ^ ((0 : ℤ) - 23)) (y := 1) (by positivity) (2 ^ 23) (by norm_num)
        rw [this]
        norm_num
      rw [e1, e2]
    have := (pos 8388607 (by norm_num) (by norm_num)).2
    rw [decode_neg, hdec] at this
    unfold encode at this ⊢
    rw [hc]
    simp only [clamp] at this
    norm_num at this ⊢
    exact this

/-- C84: whatever is above 1 is written as the largest number, whatever is below -1 as its negative, and what is not a
number as 0. -/
theorem C84_out_of_range : encode .nan = 0 ∧ encode (.infinite false) = 2 ^ 23 - 1 ∧
    encode (.infinite true) = -(2 ^ 23 - 1) ∧ ∀ x, (1 ≤ x → encode (.finite x) = 2 ^ 23 - 1) ∧
      (x ≤ -1 → encode (.finite x) = -(2 ^ 23 - 1)) := by
  have e : Float32.round (1 * 8388607) = 8388607 := by
    rw [Float32.round_eq (e := 22) (by norm_num) (by norm_num) (by norm_num)]
    have := Float32.grid_near (u := 2 ^ ((22 : ℤ) - 23)) (y := 1 * 8388607) (by positivity) (2 * 8388607) (by norm_num)
    rw [this]
    norm_num
  have h1 : toInt 8388607 (.finite 1) = 8388607 := by
    simp only [toInt]
    push_cast
    rw [e, if_pos (by norm_num)]
    norm_num
  have h2 : toInt 8388607 (.finite (-1)) = -8388607 := by
    rw [toInt_neg _ _ (by push_cast; rw [e]; norm_num), h1]
  unfold encode
  rw [maxValue_24]
  refine ⟨by simp [clamp, toInt], h1, h2, ?_⟩
  intro x
  constructor
  · intro hx
    rw [clamp, min_eq_left hx, max_eq_right (by norm_num), h1]
    norm_num
  · intro hx
    rw [clamp, min_eq_right (by linarith), max_eq_left hx, h2]
    norm_num

example : encode (.finite (3 / 2)) = 8388607 := ((C84_out_of_range.2.2.2 (3 / 2)).1 (by norm_num)).trans (by norm_num)

/-! ## Buffers -/

/-- C84: `write_buffer_into_file` writes every sample of a buffer, frame after frame. -/
theorem C84_write (value : S → F32) (b : Buf S) (hw : b.WF) (x : Nat → Nat → S)
    (hx : ∀ c f, c < b.channelCount → f < b.frameCount → b.sample? c f = some (x c f)) :
    writeBuffer value b = .ok (interleaved b.channelCount b.frameCount fun c f => encode (value (x c f))) := by
  have := writeFrames_ok value b hw x hx []
  rwa [List.nil_append] at this

/-- C84: `read_file_into_buffer` puts every sample of a file in its place. -/
theorem C84_read [Zero S] (sample : ℚ → S) (ch sr bits fr : Nat) (hch : 0 < ch) (x : Nat → Nat → Int) :
    ∃ b : Buf S, readBuffer sample ch sr bits ((interleaved ch fr x).map some) = .ok b ∧ b.WF ∧
      b.channelCount = ch ∧ b.frameCount = fr ∧ b.sampleRate = sr ∧ ∀ c f, c < ch → f < fr →
        b.sample? c f = some (sample (decode bits (x c f))) := by
  obtain ⟨b, b1, b2, _, b3, b4, b5, b6⟩ := readBuffer_ok (S := S) sample ch sr bits fr hch
    ((interleaved ch fr x).map some) (by rw [List.length_map, interleaved_length])
  refine ⟨b, b1, b2, b3, b4, b5, ?_⟩
  intro c f hc hf
  rw [b6 c f hc hf, List.getD_eq_getElem?_getD, List.getElem?_map, interleaved_get ch x c hc fr f hf]
  rfl

/-- C84: a 24 bit file that is read and written again is the same, but for numbers that are the lowest of all. -/
theorem C84_resave [Zero S] (sample : ℚ → S) (value : S → F32) (hs : ∀ q, value (sample q) = .finite q)
    (ch sr fr : Nat) (hch : 0 < ch) (file : List Int) (hl : file.length = fr * ch)
    (hf : ∀ n ∈ file, -2 ^ 23 < n ∧ n < 2 ^ 23) :
    ∃ b : Buf S, readBuffer sample ch sr 24 (file.map some) = .ok b ∧ writeBuffer value b = .ok file := by
  have e := interleaved_self ch file 0 fr hl
  obtain ⟨b, b1, b2, b3, b4, b5, b6⟩ := C84_read (S := S) sample ch sr 24 fr hch (fun c f => file.getD (f * ch + c) 0)
  rw [e] at b1
  refine ⟨b, b1, ?_⟩
  have := writeFrames_ok value b b2 (fun c f => sample (decode 24 (file.getD (f * ch + c) 0)))
    (fun c f hc hf => b6 c f (by omega) (by omega)) []
  rw [writeBuffer, this, b3, b4, List.nil_append]
  congr 1
  conv_rhs => rw [← e]
  apply interleaved_congr
  intro c f hc hf'
  rw [hs]
  have hlt : f * ch + c < file.length := by
    rw [hl]
    calc f * ch + c < f * ch + ch := by omega
      _ = (f + 1) * ch := by ring
      _ ≤ fr * ch := Nat.mul_le_mul_right _ hf'
  have hm : file.getD (f * ch + c) 0 ∈ file := by rw [getD_lt _ _ hlt]; exact List.getElem_mem hlt
  obtain ⟨n1, n2⟩ := hf _ hm
  rw [C84_resave_sample _ n1.le n2]
  omega

/-! ## Rendering -/

/-- C84 is violated for the length: half a second is rendered into an empty file. -/
theorem C84_length_violated : ¬ RenderLength := by
  intro h
  have := h 44100 0 500000000 (by norm_num) (by norm_num) 0 (by norm_num [inSeconds])
  rw [totalFrames_eq 44100 0 500000000 (by norm_num) (by norm_num)] at this
  omega

/-- C84, the part that holds for the length: the file has the frames of the whole seconds of the duration, so that all
frames are there when it is whole seconds.  Missing: what is beyond the whole seconds. -/
theorem C84_length_partial (sr s n : Nat) (hs : s < 2 ^ 22) (hn : n < 10 ^ 9) :
    totalFrames sr s n = sr * s ∧ (n = 0 → ∀ frame : Nat, (frame : ℚ) < sr * inSeconds s n ↔ frame < totalFrames sr s n) := by
  have h := totalFrames_eq sr s n hs hn
  refine ⟨h, ?_⟩
  rintro rfl frame
  rw [h, inSeconds]
  norm_num
  exact_mod_cast Iff.rfl

/-- C84: whatever program the engine runs, the file holds the output of the engine: process calls of 1024 frames on
silent input are made, and what call `i` puts out is in the file from frame `1024 i` on. -/
theorem C84_render_calls [AddZeroClass S] (ops : NodeOps S P C) (value : S → F32) (mf mc sr : Nat) (hm : 0 < mf)
    (env : Nat → Nat → Env) (commands : Nat → List (Command P C × Luck)) (hapi : ∀ i, ∀ c ∈ commands i, c.1.Api)
    (s n : Nat) (file : List Int) (E : Processor S P)
    (h : render ops value env commands sr s n (new sr mc mf) = .ok (file, E)) :
    ∃ (ks : List (Call S P C)) (x : Nat → Nat → S), RenderCalls sr (totalFrames sr s n) commands ks ∧
      framesIn ks = totalFrames sr s n ∧ calls ops (new sr mc mf) ks = .ok E ∧
      (∀ i k E1 o E2, ks[i]? = some k → calls ops (new sr mc mf) (ks.take i) = .ok E1 →
        E1.process ops k.env k.commands k.input k.output = .ok (o, E2) →
        ∀ c f, c < 2 → f < k.output.frameCount → o.sample? c f = some (x c (i * 1024 + f))) ∧
      file = interleaved 2 (totalFrames sr s n) (fun c f => encode (value (x c f))) ∧
      ks.length = (totalFrames sr s n + 1023) / 1024 := by
  unfold render at h
  obtain ⟨r, h1, h2⟩ := bind_ok h
  injection h2 with h2
  injection h2 with h2 h3
  subst h2 h3
  generalize totalFrames sr s n = total at *
  obtain ⟨ks, x, hr⟩ := renderLoop_calls value total hm env hapi _ r (by intro i hi; omega) h1
  have e : min total ((total + 1023) / 1024 * 1024) = total := by omega
  refine ⟨ks, x, hr.calls, ?_, hr.run, hr.heard, ?_, hr.count⟩
  · have := renderCalls_frames hr.calls ks.length (le_refl _)
    rw [List.take_length, hr.count, e] at this
    exact this
  · rw [hr.file, e]

theorem silent_input [Zero S] {fromInput : Bool} {mc sr : Nat} (ks : List (Call S P C)) : (∀ k ∈ ks, ∃ n, k.input = Buf.new n 2 sr) → sessionInput fromInput mc ks = silence := by
  induction ks with
  | nil => intro _; rfl
  | cons k ks ih =>
    intro h
    rw [sessionInput, ih (fun l hl => h l (by simp [hl]))]
    funext c f
    obtain ⟨n, hn⟩ := h k (by simp)
    simp only [followed, silence, hn, sampleOrSilence, new_sample?]
    split_ifs <;> rfl

/-- C84: a program that connects nodes in a row is rendered into a file of two channels that holds the signal that has
gone through the nodes: every frame, in order, none of them twice. -/
theorem C84_render [AddZeroClass S] (ops : NodeOps S P C) (value : S → F32) (mf mc sr : Nat) (hm : 0 < mf)
    (I : Dsp P → Prop) (A : Id → C → Prop) (H : Healthy ops mf sr I A) (fromInput : Bool) (ds : List (Dsp P))
    (hne : ds ≠ []) (hI : ∀ d ∈ ds, I d) (hd : ∀ d ∈ ds, d.inputCount ≤ mc ∧ d.outputCount ≤ mc)
    (hn : (ds.map Dsp.id).Nodup) (hl : ds.length ≤ 1022) (changes : Nat → List (Id × C))
    (hcs : ∀ i, ∀ x ∈ changes i, x.1 ∈ ds.map Dsp.id ∧ A x.1 x.2) (env : Nat → Nat → Env)
    (commands : Nat → List (Command P C × Luck)) (hp : ∀ i, (commands i).map Prod.fst =
      (if i = 0 then (chainProgram fromInput ds).map ApiCall.command else []) ++
        (changes i).map fun x => (ApiCall.change ⟨x.1, 0⟩ x.2).command) (s n : Nat) :
    ∃ (file : List Int) (E : Processor S P) (ks : List (Call S P C)) (es : List (ChainEvent C)) (y : Nat → Nat → S)
      (ds' : List (Dsp P)), render ops value env commands sr s n (new sr mc mf) = .ok (file, E) ∧
      RenderCalls sr (totalFrames sr s n) commands ks ∧ framesIn ks = totalFrames sr s n ∧
      ChainHistory mf sr changes ks es ∧ chainRun ops sr ds es silence = .ok (y, ds') ∧
      file = interleaved 2 (totalFrames sr s n) fun c f => encode (value (if c < mc then y c f else 0)) := by
  have hapi : ∀ i, ∀ c ∈ commands i, c.1.Api := by
    intro i c hc
    have : c.1 ∈ (commands i).map Prod.fst := List.mem_map_of_mem hc
    rw [hp i, List.mem_append, List.mem_map] at this
    rcases this with h | ⟨x, _, h⟩
    · split at h
      · obtain ⟨a, _, h⟩ := List.mem_map.mp h
        rw [← h]
        exact command_api a
      · cases h
    · rw [← h]
      trivial
  have plays : ∀ ks : List (Call S P C), RenderCalls sr (totalFrames sr s n) commands ks →
      PlaysChain fromInput ds changes ks := by
    intro ks h i k hk
    rw [(h.shape i k hk).1]
    exact hp i
  have hrun : ∀ ks : List (Call S P C), RenderCalls sr (totalFrames sr s n) commands ks →
      ∃ E, calls ops (new sr mc mf) ks = .ok E := fun ks h =>
    C81_runs ops mf mc sr hm I A H fromInput ds hne hI hd hn hl changes hcs ks (renderCalls_valid hapi h) (plays ks h)
  obtain ⟨r, _, _, h1, _⟩ := renderLoop_ok value (totalFrames sr s n) hm env hapi hrun
    ((totalFrames sr s n + 1023) / 1024) (by intro i hi; omega)
  have hrender : render ops value env commands sr s n (new sr mc mf) = .ok (r.2.2, r.1) := by
    unfold render
    rw [ok_bind h1]
    rfl
  obtain ⟨ks, x, g1, g2, g3, g4, g5, -⟩ := C84_render_calls ops value mf mc sr hm env commands hapi s n _ _ hrender
  obtain ⟨es, y, ds', c1, c2, c3⟩ := C81_session ops fromInput ds hne mf mc sr hm changes ks
    (renderCalls_valid hapi g1) (plays ks g1) r.1 g3
  rw [silent_input ks (by
    intro k hk
    obtain ⟨i, hi⟩ := List.mem_iff_getElem?.mp hk
    exact ⟨_, (g1.shape i k hi).2.2.2.2.2⟩)] at c2
  refine ⟨_, _, ks, es, y, ds', hrender, g1, g2, c1, c2, ?_⟩
  rw [g5]
  generalize totalFrames sr s n = total at *
  apply interleaved_congr
  intro c f hc hf
  have hi : f / 1024 < ks.length := by
    by_contra hcon
    have := renderCalls_frames g1 ks.length (le_refl _)
    rw [List.take_length, g2] at this
    omega
  have hk : ks[f / 1024]? = some ks[f / 1024] := List.getElem?_eq_getElem hi
  obtain ⟨k1, k2, k3, _⟩ := g1.shape _ _ hk
  have hsplit : ks = ks.take (f / 1024) ++ ks[f / 1024] :: ks.drop (f / 1024 + 1) := by
    conv_lhs => rw [← List.take_append_drop (f / 1024) ks]
    rw [List.drop_eq_getElem_cons hi]
  rw [hsplit] at g3
  obtain ⟨E1, e1, e2⟩ := (calls_append _ _ _ _).mp g3
  obtain ⟨o, E2, e3, _⟩ := calls_cons e2
  have hfr : f % 1024 < ks[f / 1024].output.frameCount := by rw [k3]; omega
  have a := g4 _ _ E1 o E2 hk e1 e3 c (f % 1024) hc hfr
  have b := c3 _ _ E1 o E2 hk e1 e3 c (f % 1024) (by rw [k2]; exact hc) hfr
  rw [renderCalls_frames g1 _ hi.le] at b
  rw [a] at b
  injection b with b
  have e1 : f / 1024 * 1024 + f % 1024 = f := by omega
  have e2 : min total (f / 1024 * 1024) = f / 1024 * 1024 := by omega
  rw [e2, e1] at b
  rw [b]

/-! ## Examples -/

/-- Half of full scale. -/
theorem encode_half : encode (.finite (1 / 2)) = 4194303 := by
  have e : Float32.round (1 / 2 * 8388607) = 8388607 / 2 := by
    rw [Float32.round_eq (e := 21) (by norm_num) (by norm_num) (by norm_num)]
    have := Float32.grid_near (u := 2 ^ ((21 : ℤ) - 23)) (y := 1 / 2 * 8388607) (by positivity) (2 * 8388607) (by norm_num)
    rw [this]
    norm_num
  have f : ⌊(8388607 / 2 : ℚ)⌋ = 4194303 := by rw [Int.floor_eq_iff]; norm_num
  have c : max (-1) (min 1 (1 / 2 : ℚ)) = 1 / 2 := by norm_num
  unfold encode clamp toInt
  rw [maxValue_24]
  simp only
  rw [c]
  push_cast
  rw [e, if_pos (by norm_num), f]
  norm_num

example : encode .nan = 0 := by simp [encode, clamp, toInt]

example : ∃ b : Buf ℚ, readBuffer id 2 44100 24 ([5, -7, 8388607, 0].map some) = .ok b ∧
    writeBuffer .finite b = .ok [5, -7, 8388607, 0] :=
  C84_resave id .finite (fun _ => rfl) 2 44100 2 (by norm_num) _ rfl (by decide)

/-- A node that puts out half of full scale. -/
def hum : NodeOps ℚ Unit Unit := ⟨fun s _ => .ok (fun _ _ => 1 / 2, s), fun s _ => .ok s⟩

theorem hum_run (sr : Nat) (es : List (ChainEvent Unit)) : ∀ (x y : Nat → Nat → ℚ) ds',
    chainRun hum sr [⟨1, 0, 2, ()⟩] es x = .ok (y, ds') → ∀ c f, c < 2 → f < ChainEvent.total es → y c f = 1 / 2 := by
  induction es with
  | nil => intro x y ds' _ c f _ hf; simp [ChainEvent.total] at hf
  | cons e es ih =>
    intro x y ds' h c f hc hf
    cases e with
    | change i r =>
      have hch : chainChange hum i r [⟨1, 0, 2, ()⟩] = .ok [⟨1, 0, 2, ()⟩] := by
        rw [chainChange, List.mapM_cons, List.mapM_nil]
        split_ifs <;> rfl
      rw [chainRun, ok_bind hch] at h
      exact ih x y ds' h c f hc (by simpa [ChainEvent.total, ChainEvent.frames] using hf)
    | block t n =>
      rw [chainRun] at h
      obtain ⟨r, h1, h2⟩ := bind_ok h
      injection h1 with h1
      subst h1
      obtain ⟨q, h3, h4⟩ := bind_ok h2
      injection h4 with h4
      injection h4 with h4 h5
      subst h4
      simp only [followed]
      split_ifs with hfn
      · simp [clip, hc, hfn]
      · refine ih _ _ _ h3 c (f - n) hc ?_
        have : ChainEvent.total (.block t n :: es) = n + ChainEvent.total es := by
          simp [ChainEvent.total, ChainEvent.frames]
        omega

/-- One second at two frames a second of a node that puts out half of full scale: the hypotheses of
`C84_render` are met, and the file is known. -/
example : ∃ E, render hum .finite (fun _ _ => Env.plain)
    (fun i => if i = 0 then ((chainProgram false [⟨1, 0, 2, ()⟩]).map ApiCall.command).map fun x => (x, .plain) else [])
    2 1 0 (new 2 2 16) = .ok ([4194303, 4194303, 4194303, 4194303], E) := by
  obtain ⟨file, E, ks, es, y, ds', h1, h2, h3, h4, h5, h6⟩ := C84_render hum .finite 16 2 2 (by norm_num) _ _
    (healthy_of_total 16 2 (fun s b => ⟨_, rfl⟩) (fun s r => ⟨_, rfl⟩)) false [⟨1, 0, 2, ()⟩] (by simp)
    (fun _ _ => trivial) (by simp) (by simp) (by simp) (fun _ => []) (by simp) (fun _ _ => Env.plain)
    (fun i => if i = 0 then ((chainProgram false [⟨1, 0, 2, ()⟩]).map ApiCall.command).map fun x => (x, .plain) else [])
    (by intro i; split_ifs <;> simp [Function.comp_def]) 1 0
  rw [totalFrames_eq 2 1 0 (by norm_num) (by norm_num)] at h3 h6
  have ht := history_total h4
  refine ⟨E, ?_⟩
  rw [h1, h6]
  have hy := hum_run 2 es _ y ds' h5
  have : interleaved 2 (2 * 1) (fun c f => encode (.finite (if c < 2 then y c f else 0))) =
      interleaved 2 2 fun _ _ => 4194303 := by
    apply interleaved_congr
    intro c f hc hf
    rw [if_pos hc, hy c f hc (by omega), encode_half]
  rw [this]
  rfl

end Wav
end Rawdio
