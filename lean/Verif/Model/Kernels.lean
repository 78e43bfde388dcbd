import Verif.Model.Basic

/-!
# `dsp/mod.rs`: the vectorised sample kernels

`S` is any type of samples with the operations used; no algebraic law is assumed, so everything
holds of `f32` with its rounding.

`slice::as_simd::<16>` splits a slice in an unaligned prefix, whole vectors of 16 lanes and a
remainder.  How long the prefix is depends on the address of the slice, so it is an explicit
parameter `pre` (any number; longer than the slice means "everything is prefix").
-/

namespace Rawdio
namespace Kernels

variable {S : Type}

/-- `VECTOR_SIZE`, `dsp/mod.rs:10,37,66,95,123,150,175`. -/
def vectorSize : Nat := 16

/-- The whole vectors in the middle of `as_simd`, `dsp/mod.rs:12-13`: `n` chunks of 16. -/
def chunks : Nat → List S → List (List S)
  | 0, _ => []
  | n + 1, l => l.take vectorSize :: chunks n (l.drop vectorSize)

/-- `as_simd` / `as_simd_mut`, `dsp/mod.rs:12-13`: prefix, vectors, remainder. -/
def asSimd (pre : Nat) (l : List S) : List S × List (List S) × List S :=
  let rest := l.drop pre
  let n := rest.length / vectorSize
  (l.take pre, chunks n rest, rest.drop (vectorSize * n))

/-- `for (input, output) in zip(source, destination) { *output = f(*input, *output) }`,
`dsp/mod.rs:16-18`: the shorter of the two ends the loop, the rest of the destination stays. -/
def zipInto {A B : Type} (f : A → B → B) : List A → List B → List B
  | [], d => d
  | _ :: _, [] => []
  | a :: as, b :: bs => f a b :: zipInto f as bs

/-- `izip!(source, destination, gain)`, `dsp/mod.rs:73,81,85` (and `:102-115`). -/
def zipInto3 {A B C : Type} (f : A → B → C → B) : List A → List B → List C → List B
  | a :: as, b :: bs, c :: cs => f a b c :: zipInto3 f as bs cs
  | _, bs, _ => bs

/-- The common shape of the two-argument kernels `dsp/mod.rs:7-32,34-60,120-145,147-172`:
`preS`, `preD` are the prefix lengths chosen by the alignment of the two slices; lanes of a vector
are combined one by one. -/
def kernel2 (f : S → S → S) (preS preD : Nat) (source destination : List S) : List S :=
  let (sPre, sMain, sPost) := asSimd preS source
  let (dPre, dMain, dPost) := asSimd preD destination
  if sPre.length = dPre.length then
    zipInto f sPre dPre ++ (zipInto (zipInto f) sMain dMain).flatten ++ zipInto f sPost dPost
  else
    zipInto f source destination

/-- The common shape of the three-argument kernels `dsp/mod.rs:62-89,91-118`. -/
def kernel3 (f : S → S → S → S) (preS preD preG : Nat) (source destination gain : List S) :
    List S :=
  let (sPre, sMain, sPost) := asSimd preS source
  let (dPre, dMain, dPost) := asSimd preD destination
  let (gPre, gMain, gPost) := asSimd preG gain
  if sPre.length = dPre.length ∧ sPre.length = gPre.length then
    zipInto3 f sPre dPre gPre ++ (zipInto3 (zipInto3 f) sMain dMain gMain).flatten
      ++ zipInto3 f sPost dPost gPost
  else
    zipInto3 f source destination gain

/-- `mix_into`, `dsp/mod.rs:7-32`. -/
def mixInto [Add S] (preS preD : Nat) (source destination : List S) : List S :=
  kernel2 (fun i o => o + i) preS preD source destination

/-- `mix_into_with_gain`, `dsp/mod.rs:34-60`. -/
def mixIntoWithGain [Add S] [Mul S] (preS preD : Nat) (source destination : List S) (gain : S) :
    List S :=
  kernel2 (fun i o => o + i * gain) preS preD source destination

/-- `mix_into_with_gains`, `dsp/mod.rs:62-89`. -/
def mixIntoWithGains [Add S] [Mul S] (preS preD preG : Nat)
    (source destination gain : List S) : List S :=
  kernel3 (fun i o g => o + i * g) preS preD preG source destination gain

/-- `mix`, `dsp/mod.rs:91-118`: the destination is overwritten with the sum of two sources. -/
def mix [Add S] (pre1 pre2 preD : Nat) (source1 source2 destination : List S) : List S :=
  kernel3 (fun i1 _ i2 => i1 + i2) pre1 preD pre2 source1 destination source2

/-- `subtract_from`, `dsp/mod.rs:120-145`. -/
def subtractFrom [Sub S] (preS preD : Nat) (source destination : List S) : List S :=
  kernel2 (fun i o => o - i) preS preD source destination

/-- `multiply`, `dsp/mod.rs:147-172`. -/
def multiply [Mul S] (preG preD : Nat) (data gain : List S) : List S :=
  kernel2 (fun g s => s * g) preG preD gain data

/-- `multiply_by_value`, `dsp/mod.rs:174-191`. -/
def multiplyByValue [Mul S] (preD : Nat) (data : List S) (gain : S) : List S :=
  let (dPre, dMain, dPost) := asSimd preD data
  dPre.map (· * gain) ++ (dMain.map (fun v => v.map (· * gain))).flatten ++ dPost.map (· * gain)

end Kernels
end Rawdio
