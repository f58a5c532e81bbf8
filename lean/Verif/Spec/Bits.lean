/-!
# Specification: bit strings, Exp-Golomb codes, trailing bits (ITU-T H.264, 7.2, 7.3.2.11, 9.1)

Independent of the model. Bits of a byte come most significant first.
-/
namespace Ouro.Spec

/-- The eight bits of a byte, most significant first. -/
def byteBits (b : UInt8) : List Bool :=
  [b.toNat.testBit 7, b.toNat.testBit 6, b.toNat.testBit 5, b.toNat.testBit 4,
   b.toNat.testBit 3, b.toNat.testBit 2, b.toNat.testBit 1, b.toNat.testBit 0]

/-- All bits of a byte string in transmission order. -/
def bitsOf (bs : List UInt8) : List Bool := bs.flatMap byteBits

/-- Big-endian value of a bit string. -/
def bitsVal (l : List Bool) : Nat := l.foldl (fun a b => 2 * a + b.toNat) 0

/-- `u(n)`: the `n`-bit big-endian form of `v` (of its low `n` bits). -/
def uBits : (n : Nat) → (v : Nat) → List Bool
  | 0, _ => []
  | n + 1, v => v.testBit n :: uBits n v

/-- `ue(v)`: with `k = ⌊log2 (v+1)⌋`, `k` zero bits followed by the `k+1`-bit form of `v+1`. -/
def ueBits (v : Nat) : List Bool :=
  List.replicate (v + 1).log2 false ++ uBits ((v + 1).log2 + 1) (v + 1)

/-- The code number of a signed value (H.264 Table 9-3): `v > 0 ↦ 2v-1`, `v ≤ 0 ↦ -2v`. -/
def seCode (v : Int) : Nat := if v > 0 then (2 * v - 1).toNat else (-2 * v).toNat

/-- `se(v)` -/
def seBits (v : Int) : List Bool := ueBits (seCode v)

end Ouro.Spec

namespace Ouro.Spec

/-- H.264 7.3.2.1.1.1 `scaling_list()`: `ds` are legal `delta_scale` values that code the entries `es` when the
previous scale is `last`: each new scale is `(last + delta + 256) % 256` and non-zero. -/
def ScalingDeltas : (last : Int) → (es ds : List Int) → Prop
  | _, [], [] => True
  | last, e :: es, d :: ds =>
    1 ≤ e ∧ e ≤ 255 ∧ -128 ≤ d ∧ d ≤ 127 ∧ (last + d) % 256 = e ∧ ScalingDeltas e es ds
  | _, _, _ => False

end Ouro.Spec
