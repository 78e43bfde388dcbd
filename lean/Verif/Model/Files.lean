import Verif.Model.Float
import Verif.Model.Processor

/-!
# `examples/src/common/file_utils.rs`: WAV files

Reading a file into a buffer, writing a buffer into a file, and rendering an engine into a file.  A file is the list
of the samples that `hound` reads or is given, interleaved; opening, headers, and the end of a file are not modelled.
-/

namespace Rawdio

namespace Float32

/-- The distance between two `f32` numbers of the magnitude of `x`: 24 binary digits, the smallest being 2^-149.
The type of the samples at `examples/src/common/file_utils.rs:26,48-50,131-133`. -/
def ulp (x : ℚ) : ℚ := 2 ^ max (Int.log 2 |x| - 23) (-149)

/-- The rounding of the conversion at `examples/src/common/file_utils.rs:26` and of the multiplications at `:50,133`:
to the nearest `f32`, ties to even.  Numbers of 2^128 and more are not met there. -/
def round (x : ℚ) : ℚ := Timestamp.roundHalfEven (x / ulp x) * ulp x

end Float32

/-- The values of a sample, an `f32` (`buffer/audio_buffer.rs:150`). -/
inductive F32
  | nan
  | infinite (negative : Bool)
  | finite (x : ℚ)

namespace Wav

/-- `2_i32.pow(bits_per_sample - 1) - 1`, `examples/src/common/file_utils.rs:19,36,63`, of a file of at most 31 bits
per sample. -/
def maxValue (bits : Nat) : Int := 2 ^ (bits - 1) - 1

/-- `clamp(-1.0, 1.0)`, `examples/src/common/file_utils.rs:49,132`: NaN remains. -/
def clamp : F32 → F32
  | .nan => .nan
  | .infinite negative => .finite (if negative then -1 else 1)
  | .finite x => .finite (max (-1) (min 1 x))

/-- `(sample * max_value as f32) as i32`, `examples/src/common/file_utils.rs:50,133`, after `clamp`: the product is
rounded, the conversion drops the fraction, and NaN becomes 0.  (2^23 - 1 is an `f32`.) -/
def toInt (maxValue : Int) : F32 → Int
  | .nan => 0
  | .infinite negative => if negative then -2 ^ 31 else 2 ^ 31 - 1
  | .finite x =>
    let product := Float32.round (x * maxValue)
    max (-2 ^ 31) (min (2 ^ 31 - 1) (if 0 ≤ product then ⌊product⌋ else ⌈product⌉))

/-- What is written for a sample into a file of 24 bits, `examples/src/common/file_utils.rs:35-36,49-50` and
`:62-63,132-133`. -/
def encode (x : F32) : Int := toInt (maxValue 24) (clamp x)

/-- `(sample as f64 / max_value as f64) as f32`, `examples/src/common/file_utils.rs:26`. -/
def decode (bits : Nat) (n : Int) : ℚ := Float32.round (Float64.round (n / maxValue bits))

/-- `writer.write_sample(sample).expect(…)`, `examples/src/common/file_utils.rs:51,134`: `hound` refuses numbers of
more than the 24 bits of the file. -/
def writeSample (file : List Int) (n : Int) : Res (List Int) :=
  if -2 ^ 23 ≤ n ∧ n < 2 ^ 23 then .ok (file ++ [n]) else .error .panic

variable {S : Type}

/-- The two loops of `write_buffer_into_file`, `examples/src/common/file_utils.rs:45-53`, and of `process_block`,
`:128-136`; `value` is the value of a sample. -/
def writeFrames (value : S → F32) (buffer : Buf S) (file : List Int) : Res (List Int) :=
  (List.range buffer.frameCount).foldlM (fun file frame =>
    (List.range buffer.channelCount).foldlM (fun file channel => do
      let sample ← buffer.getSample ⟨channel, frame⟩
      writeSample file (encode (value sample))) file) file

/-- `write_buffer_into_file`, `examples/src/common/file_utils.rs:34-54`. -/
def writeBuffer (value : S → F32) (buffer : Buf S) : Res (List Int) := writeFrames value buffer []

/-- `read_file_into_buffer`, `examples/src/common/file_utils.rs:9-32`: a sample that `hound` cannot read is left out.
`sample` is the sample of a value. -/
def readBuffer [Zero S] (sample : ℚ → S) (channels sampleRate bits : Nat) (file : List (Option Int)) : Res (Buf S) :=
  file.zipIdx.foldlM (fun (buffer : Buf S) x =>
    match x.1 with
    | none => .ok buffer
    | some n => buffer.setSample ⟨x.2 % channels, x.2 / channels⟩ (sample (decode bits n)))
    (Buf.new (file.length / channels) channels sampleRate)

/-- `total_frame_count`, `examples/src/common/file_utils.rs:68-69`.  The duration is whole seconds and nanoseconds
(less than 10^9); `as_secs_f64` divides the nanoseconds and adds the seconds, rounding both times.  The product is not
more than a `usize` can hold. -/
def totalFrames (sampleRate seconds nanoseconds : Nat) : Nat :=
  sampleRate * ⌊Float64.round (seconds + Float64.round (nanoseconds / 10 ^ 9))⌋.toNat

variable {P C : Type}

/-- `process_block`, `examples/src/common/file_utils.rs:107-137`, when `commands` are received in the call. -/
def processBlock [Zero S] [Add S] (ops : NodeOps S P C) (value : S → F32) (env : Nat → Env)
    (commands : List (Command P C × Luck)) (frames position : Nat) (E : Processor S P) (buffer : Buf S)
    (file : List Int) : Res (Processor S P × Buf S × List Int) := do
  let input := Buf.new frames buffer.channelCount buffer.sampleRate
  let slice ← buffer.sliceFrames position frames true
  let r ← E.process ops env commands input slice
  let file ← writeFrames value r.1 file
  return (r.2, r.1.parent, file)

/-- The loop of `render_audio_process_to_file`, `examples/src/common/file_utils.rs:74-88`, over the positions
`(0..total).step_by(1024)`; `commands i` are received in call `i`, and `env i` are the environments of its blocks. -/
def renderLoop [Zero S] [Add S] (ops : NodeOps S P C) (value : S → F32) (env : Nat → Nat → Env)
    (commands : Nat → List (Command P C × Luck)) (total : Nat) (calls : List Nat)
    (s : Processor S P × Buf S × List Int) : Res (Processor S P × Buf S × List Int) :=
  calls.foldlM (fun s i => processBlock ops value (env i) (commands i) (min 1024 (total - i * 1024)) (i * 1024)
    s.1 s.2.1 s.2.2) s

/-- `render_audio_process_to_file`, `examples/src/common/file_utils.rs:56-89`: the file, and the engine afterwards. -/
def render [Zero S] [Add S] (ops : NodeOps S P C) (value : S → F32) (env : Nat → Nat → Env)
    (commands : Nat → List (Command P C × Luck)) (sampleRate seconds nanoseconds : Nat) (E : Processor S P) :
    Res (List Int × Processor S P) := do
  let total := totalFrames sampleRate seconds nanoseconds
  let r ← renderLoop ops value env commands total (List.range ((total + 1023) / 1024))
    (E, Buf.new total 2 sampleRate, [])
  return (r.2.2, r.1)

end Wav
end Rawdio
