import Verif.Model.ParamSets
/-! # Memory requested by `ParsePPS` (net/h264/spspps.go)

The only place in package h264 where the size of a slice is a number taken from the data. Other memory is that of the sets themselves, whose
size is fixed, and copies of the data. -/
namespace Ouro

/-- spspps.go:272-330: `ParsePPS` up to and including `make([]byte, PicSizeInMapUnitsMinus1+1)`. The result is the number of bytes asked for there, 0
if that place is not reached because of the number or type of the slice groups. The sum is computed in `uint32`. -/
def ppsMakeBits : BR Nat := do
  let _ ← readUnsignedGolomb
  let _ ← readUnsignedGolomb
  let _ ← readFlag
  let _ ← readFlag
  let n ← readUnsignedGolomb
  if n > 0 then do
    let typ ← readUnsignedGolomb
    if typ = 6 then do
      let size ← readUnsignedGolomb
      pure (u32 (size + 1))
    else pure 0
  else pure 0

/-- The number of bytes `ParsePPS(buf)` asks for, for the map of slice groups: 0 also if it returns an error before. -/
def ppsMakes (buf : Bytes) : Nat :=
  match ppsMakeBits (newBitReader buf) with
  | .ok (.ok k, _) => k
  | _ => 0

end Ouro
