import Verif.Model.Bits
/-!
# Histories of calls on a `BitReader`

The exported methods of /repo/net/h264/bits.go as operations, so that "whatever was read before" can be quantified over.
-/
namespace Ouro

/-- The exported methods of `BitReader` that move it (bits.go:32, 53, 64, 71, 91, 105, 129, 145, 161, 176). -/
inductive BitOp
  | readBits (n : Nat)
  | readByteBits (n : Nat)
  | readFlag
  | readUnsignedGolomb
  | readSignedGolomb
  | readScalingList (len : Nat)
  | skipBits (n : Nat)
  | skipGolomb
  | skipTrailingBits
  | readPayloadParam

/-- Call a method and ignore its result and error: only the reader state remains. -/
def BR.exec {α : Type} (m : BR α) (r : BitReader) : Go BitReader :=
  match m r with
  | .error p => .error p
  | .ok (_, r') => .ok r'

/-- The methods of bits.go, each by its model in Model/Bits. -/
def BitOp.run : BitOp → BitReader → Go BitReader
  | .readBits n => (Ouro.readBits n).exec
  | .readByteBits n => (Ouro.readByteBits n).exec
  | .readFlag => Ouro.readFlag.exec
  | .readUnsignedGolomb => Ouro.readUnsignedGolomb.exec
  | .readSignedGolomb => Ouro.readSignedGolomb.exec
  | .readScalingList n => (Ouro.readScalingList n).exec
  | .skipBits n => (Ouro.skipBits n).exec
  | .skipGolomb => Ouro.skipGolomb.exec
  | .skipTrailingBits => Ouro.skipTrailingBits.exec
  | .readPayloadParam => Ouro.readPayloadParam.exec

/-- Run a history of calls; a panic ends it. -/
def runOps : List BitOp → BitReader → Go BitReader
  | [], r => .ok r
  | op :: ops, r =>
    match op.run r with
    | .error p => .error p
    | .ok r' => runOps ops r'

/-- `r` is the state of a reader created on `buf` after some history of calls. -/
def ReaderAfter (buf : Bytes) (ops : List BitOp) (r : BitReader) : Prop := runOps ops (newBitReader buf) = .ok r

end Ouro
