import Verif.Go.Basic
/-!
# Model of /repo/net/h264/bits.go

`uint` quantities (byte index, bit index, bit counts) are `Nat`; `BitReader.Inv` (Lemmas/Bits) shows that in every
reachable state none of the subtractions below goes negative, so `Nat` subtraction agrees with Go's.
`uint32` values are `Nat` reduced modulo `2^32` at every operation that can wrap.
-/
namespace Ouro

/-- Errors of package h264: `io.ErrUnexpectedEOF`, `errMissingTrailingBits` (bits.go:8-10),
`errPacketTooShort` (packet.go:86-90). -/
inductive H264Err
  | unexpectedEOF
  | missingTrailingBits
  | packetTooShort
  deriving DecidableEq, Repr

/-- bits.go:13-18 `BitReader`. The field `count` always equals `len(buffer)` (bits.go:22) and is derived here. -/
structure BitReader where
  buffer : Bytes
  byten : Nat
  bitn : Nat
  deriving DecidableEq, Repr

/-- bits.go:21-23 `NewBitReader`. -/
def newBitReader (buf : Bytes) : BitReader := { buffer := buf, byten := 0, bitn := 0 }

/-- bits.go:26-28 `Available`. -/
def BitReader.available (r : BitReader) : Nat := (r.buffer.length - r.byten) * 8 - r.bitn

/-- A method of `*BitReader` with result `(α, error)`: mutates the reader, may panic. All methods modelled with it
return a zero value together with a non-nil error, so an error carries no value. -/
def BR (α : Type) := BitReader → Go (Except H264Err α × BitReader)

namespace BR
/-- Return a value, no error. -/
def ret {α : Type} (a : α) : BR α := fun r => .ok (.ok a, r)
/-- Return an error. -/
def fail {α : Type} (e : H264Err) : BR α := fun r => .ok (.error e, r)
/-- Panic. -/
def panic {α : Type} (p : Panic) : BR α := fun _ => .error p
/-- Sequencing as in `if x, err = f(); err != nil { return }; ...` -/
def andThen {α β : Type} (m : BR α) (f : α → BR β) : BR β := fun r =>
  match m r with
  | .error p => .error p
  | .ok (.error e, r') => .ok (.error e, r')
  | .ok (.ok a, r') => f a r'
end BR

instance : Monad BR where
  pure := BR.ret
  bind := BR.andThen

/-- bits.go:38-43: the byte accumulation loop of `ReadBits`. `val` is a `uint32`. -/
def readLoop (buf : Bytes) (n byten val bits : Nat) : Go (Nat × Nat × Nat) :=
  if n > bits then
    match idx buf (byten + 1) with
    | .error p => .error p
    | .ok b => readLoop buf n (byten + 1) (u32 (val <<< 8) ||| b.toNat) (bits + 8)
  else .ok (byten, val, bits)
  termination_by n - bits

/-- bits.go:32-48 `ReadBits`. The mask `(1 << n) - 1` is computed in `uint32`. -/
def readBits (n : Nat) : BR Nat := fun r =>
  if n > 32 ∨ n > r.available then .ok (.error .unexpectedEOF, r)
  else
    match idx r.buffer r.byten with
    | .error p => .error p
    | .ok b =>
      match readLoop r.buffer n r.byten b.toNat (8 - r.bitn) with
      | .error p => .error p
      | .ok (byten, val, bits) =>
        .ok (.ok ((val >>> (bits - n)) &&& u32 (u32 (1 <<< n) + 4294967295)),
          { r with byten := byten, bitn := 8 - (bits - n) })

/-- bits.go:53-59 `ReadByteBits`: `n` is clamped to 8, the value converted to a byte. -/
def readByteBits (n : Nat) : BR UInt8 := do
  let v ← readBits (if n > 8 then 8 else n)
  pure (UInt8.ofNat v)

/-- bits.go:64-67 `ReadFlag`. -/
def readFlag : BR Bool := do
  let v ← readBits 1
  pure (v != 0)

/-- bits.go:72-79 (and 146-154): count zero bits up to and including the first one bit. On a read error `ReadBits`
returns 0, so the loop body is entered and the error returned. The first argument bounds the iterations. -/
def golombZeros : Nat → Nat → BR Nat
  | 0, _ => BR.panic .fuel
  | fuel + 1, zeroes => do
    let v ← readBits 1
    if v = 0 then golombZeros fuel (zeroes + 1) else pure zeroes

/-- bits.go:71-87 `ReadUnsignedGolomb`: `val + (1 << zeroes) - 1` in `uint32`. -/
def readUnsignedGolomb : BR Nat := fun r =>
  (do
    let zeroes ← golombZeros (r.available + 1) 0
    let v ← readBits zeroes
    pure (u32 (u32 (v + u32 (1 <<< zeroes)) + 4294967295)) : BR Nat) r

/-- bits.go:91-100 `ReadSignedGolomb`: `-int32(uval/2)` or `int32((uval+1)/2)`, both in 32 bits. -/
def readSignedGolomb : BR Int := do
  let uval ← readUnsignedGolomb
  if uval &&& 1 = 0 then pure (i32 (-(i32 ((uval / 2 : Nat) : Int))))
  else pure (i32 ((u32 (uval + 1) / 2 : Nat) : Int))

/-- bits.go:109-123: loop of `ReadScalingList`. `todo` is the number of slice positions left, `done` the entries
written so far; `first` is `j == 0`. Go's `%` truncates towards zero (`Int.tmod`). Simplification: when a delta cannot be
read the partially written slice is not represented (both callers discard the object holding it). -/
def scalingLoop : (todo : Nat) → (done : List Int) → (first : Bool) → (lastScale nextScale : Int) →
    (useDefault : Bool) → BR (List Int × Bool)
  | 0, done, _, _, _, ud => pure (done, ud)
  | todo + 1, done, first, last, next, ud => do
    let (next, ud) ←
      (if next ≠ 0 then do
        let delta ← readSignedGolomb
        let next' := Int.tmod (i32 (i32 (last + delta) + 256)) 256
        pure (next', first && next' == 0)
      else pure (next, ud) : BR (Int × Bool))
    if next = 0 then scalingLoop todo (done ++ [last]) false last next ud
    else scalingLoop todo (done ++ [next]) false next next ud

/-- bits.go:105-125 `ReadScalingList(list)` for a slice of length `n`: the new contents of the slice and `useDefault`. -/
def readScalingList (n : Nat) : BR (List Int × Bool) := scalingLoop n [] true 8 8 false

/-- bits.go:134-138: loop of `SkipBits`. -/
def skipLoop (n byten bits : Nat) : Nat × Nat :=
  if n > bits then skipLoop n (byten + 1) (bits + 8) else (byten, bits)
  termination_by n - bits

/-- bits.go:129-141 `SkipBits`. -/
def skipBits (n : Nat) : BR Unit := fun r =>
  if n > 32 ∨ n > r.available then .ok (.error .unexpectedEOF, r)
  else
    let (byten, bits) := skipLoop n r.byten (8 - r.bitn)
    .ok (.ok (), { r with byten := byten, bitn := 8 - (bits - n) })

/-- bits.go:145-157 `SkipGolomb`. -/
def skipGolomb : BR Unit := fun r =>
  (do
    let zeroes ← golombZeros (r.available + 1) 0
    skipBits zeroes : BR Unit) r

/-- bits.go:166-171: loop of `SkipTrailingBits` over the alignment bits. -/
def trailingLoop : Nat → BR Unit
  | 0 => BR.panic .fuel
  | fuel + 1 => fun r =>
    if r.bitn ≠ 0 ∧ r.bitn ≠ 8 then
      match readBits 1 r with
      | .error p => .error p
      | .ok (.error _, r') => .ok (.error .missingTrailingBits, r')
      | .ok (.ok v, r') => if v ≠ 0 then .ok (.error .missingTrailingBits, r') else trailingLoop fuel r'
    else .ok (.ok (), r)

/-- bits.go:161-173 `SkipTrailingBits`. -/
def skipTrailingBits : BR Unit := fun r =>
  match readBits 1 r with
  | .error p => .error p
  | .ok (.error _, r') => .ok (.error .missingTrailingBits, r')
  | .ok (.ok v, r') => if v = 0 then .ok (.error .missingTrailingBits, r') else trailingLoop (r'.available + 1) r'

/-- bits.go:178-186: loop of `ReadPayloadParam`; `val` is a `uint32`. Simplification: on error Go also returns the
sum accumulated so far; the model returns the error only. -/
def payloadLoop : Nat → Nat → BR Nat
  | 0, _ => BR.panic .fuel
  | fuel + 1, val => do
    let v ← readBits 8
    let val' := u32 (val + v)
    if v ≠ 255 then pure val' else payloadLoop fuel val'

/-- bits.go:176-187 `ReadPayloadParam`. -/
def readPayloadParam : BR Nat := fun r => payloadLoop (r.available + 1) 0 r

end Ouro
