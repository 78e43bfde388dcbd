import Mathlib.Data.Real.Basic
import Verif.Model.Accessors

/-! # The documented parameters of the effects, independent of the tables in the constructors -/

namespace Rawdio
namespace Effect

/-- The list under "Parameters" in the documentation of each effect: `effects/gain/gain_node.rs:12-13`,
`effects/pan/pan_node.rs:15-16`, `effects/biquad/biquad_node.rs:8-12`, `effects/compressor/compressor_node.rs:9-16`,
`effects/waveshaper/waveshaper_node.rs:6-8`, `effects/convolution/convolution_node.rs:7-9`,
`effects/oscillator/oscillator_node.rs:15-18`; each with the method that is documented to return it. -/
def documented : Effect → List (String × String)
  | gain => [("gain", "gain")]
  | pan => [("pan", "pan")]
  | biquad => [("frequency", "frequency"), ("q", "q"), ("shelf-gain", "shelf_gain"), ("gain", "gain")]
  | compressor => [("attack", "attack"), ("release", "release"), ("ratio", "ratio"), ("threshold", "threshold"),
      ("knee", "knee"), ("wet", "wet"), ("dry", "dry")]
  | waveshaper => [("overdrive", "overdrive"), ("mix", "mix")]
  | convolution => [("wet", "wet"), ("dry", "dry")]
  | oscillator _ => [("frequency", "frequency"), ("gain", "gain")]

/-- The effect can be made: only an oscillator has an argument that matters. -/
def Makeable : Effect → Prop
  | oscillator f => 20 ≤ f ∧ f ≤ 20000
  | _ => True

end Effect
end Rawdio
