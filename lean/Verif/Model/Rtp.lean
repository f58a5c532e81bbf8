import Verif.Go.Basic
/-!
# Model of /repo/net/rtp/packet.go and /repo/net/rtcp/packet.go

The received buffer is a value; that the payload and extension of the result share its memory is not modelled.
-/
namespace Ouro

/-- rtp/packet.go:15-17, rtcp/packet.go:15-18. -/
inductive RtpErr
  | invalidVersion
  | packetTooShort
  deriving DecidableEq, Repr

/-- rtp/packet.go:35-46 `Packet`. -/
structure RtpPacket where
  vpxcc : UInt8
  mpt : UInt8
  sn : Nat
  ts : Nat
  ssrc : Nat
  csrc : List Nat
  xh : Nat
  xl : Nat
  xd : Bytes
  pl : Bytes
  deriving DecidableEq, Repr

/-- rtp/packet.go:86-88 `P`. -/
def RtpPacket.p (p : RtpPacket) : Bool := (p.vpxcc &&& 0x20) != 0
/-- rtp/packet.go:91-93 `X`. -/
def RtpPacket.x (p : RtpPacket) : Bool := (p.vpxcc &&& 0x10) != 0
/-- rtp/packet.go:96-98 `CC`. -/
def RtpPacket.cc (p : RtpPacket) : UInt8 := p.vpxcc &&& 0x0F
/-- rtp/packet.go:101-103 `M`. -/
def RtpPacket.m (p : RtpPacket) : Bool := (p.mpt &&& 0x80) != 0
/-- rtp/packet.go:106-108 `PT`. -/
def RtpPacket.pt (p : RtpPacket) : UInt8 := p.mpt &&& 0x7F

/-- `be.Uint16(buf[off:])`, as in rtp/packet.go:57, 70 and 71 -/
def u16At (buf : Bytes) (off : Nat) : Go Nat :=
  match sliceFrom buf off with
  | .error p => .error p
  | .ok b => beU16 b
/-- `be.Uint32(buf[off:])`, as in rtp/packet.go:58, 59 and 65 -/
def u32At (buf : Bytes) (off : Nat) : Go Nat :=
  match sliceFrom buf off with
  | .error p => .error p
  | .ok b => beU32 b
/-- `be.Uint64(buf[off:])`, as in rtcp/packet.go:207 -/
def u64At (buf : Bytes) (off : Nat) : Go Nat :=
  match sliceFrom buf off with
  | .error p => .error p
  | .ok b => beU64 b

/-- rtp/packet.go:64-67: reads `n` CSRC words from offset `off`. -/
def csrcLoop (buf : Bytes) : Nat → Nat → Go (List Nat)
  | 0, _ => .ok []
  | n + 1, off =>
    match u32At buf off with
    | .error p => .error p
    | .ok c =>
      match csrcLoop buf n (off + 4) with
      | .error p => .error p
      | .ok cs => .ok (c :: cs)

/-- rtp/packet.go:69-77: extension header at `off`: profile bits, length, data and the new offset. -/
def extAt (buf : Bytes) (x : Bool) (off : Nat) : Go (Nat × Nat × Bytes × Nat) :=
  if x then do
    let xh ← u16At buf off
    let xl ← u16At buf (off + 2)
    if xl > 0 then
      let xd ← slice buf (off + 4) (off + 4 + xl * 4)
      pure (xh, xl, xd, off + 4 + xl * 4)
    else pure (xh, xl, [], off + 4)
  else pure (0, 0, [], off)

/-- rtp/packet.go:50-83 `Unpack`. -/
def rtpUnpack (buf : Bytes) : Go (Except RtpErr RtpPacket) := do
  let b0 ← idx buf 0
  if (b0 &&& 0xC0) != 0x80 then return .error .invalidVersion
  let b1 ← idx buf 1
  let sn ← u16At buf 2
  let ts ← u32At buf 4
  let ssrc ← u32At buf 8
  let cc := (b0 &&& 0x0F).toNat
  let csrc ← csrcLoop buf cc 12
  let (xh, xl, xd, off) ← extAt buf ((b0 &&& 0x10) != 0) (12 + cc * 4)
  let pl ← sliceFrom buf off
  return .ok { vpxcc := b0, mpt := b1, sn := sn, ts := ts, ssrc := ssrc, csrc := csrc, xh := xh, xl := xl, xd := xd, pl := pl }

/-- `be.PutUint16(b[off:], v)` on a slice, as in rtp/packet.go:122: overwrites two bytes, panics if they are not there. -/
def putU16 (b : Bytes) (off v : Nat) : Go Bytes :=
  if off + 2 ≤ b.length then .ok (b.take off ++ [UInt8.ofNat (v / 256), UInt8.ofNat v] ++ b.drop (off + 2)) else .error .index
/-- `be.PutUint32(b[off:], v)`, as in rtp/packet.go:123. -/
def putU32 (b : Bytes) (off v : Nat) : Go Bytes :=
  if off + 4 ≤ b.length then
    .ok (b.take off ++ [UInt8.ofNat (v / 16777216), UInt8.ofNat (v / 65536), UInt8.ofNat (v / 256), UInt8.ofNat v] ++ b.drop (off + 4))
  else .error .index
/-- `b[i] = v` -/
def setAt (b : Bytes) (i : Nat) (v : UInt8) : Go Bytes :=
  if i < b.length then .ok (b.set i v) else .error .index

/-- rtp/packet.go:111-126 `Pack`. `none` is the nil packet or slice. `HeaderSize + p.CC()*4` is a `byte` sum (at most 72),
`sz` wraps at 16 bits. -/
def rtpPack : Option RtpPacket → Go (Option Bytes)
  | none => .ok none
  | some p => do
    let sz := 12 + p.cc.toNat * 4
    let sz := if p.x then u16 (sz + u16 (4 * u16 (1 + p.xl))) else sz
    let b := List.replicate sz (0 : UInt8)
    let b ← setAt b 0 p.vpxcc
    let b ← setAt b 1 p.mpt
    let b ← putU16 b 2 p.sn
    let b ← putU32 b 4 p.ts
    return some b

/-- rtcp/packet.go:101-108 `DataSR`; `Reports` is never filled in. -/
structure DataSR where
  ssrc : Nat
  ntpts : Nat
  rtpts : Nat
  pc : Nat
  oc : Nat
  deriving DecidableEq, Repr

/-- rtcp/packet.go:30-37 `Packet`; `DRR` and `DBYE` are never set. -/
structure RtcpPacket where
  vpc : UInt8
  pt : UInt8
  ln : Nat
  dsr : Option DataSR
  deriving DecidableEq, Repr

/-- rtcp/packet.go:220-222 `P`. -/
def RtcpPacket.p (p : RtcpPacket) : Bool := (p.vpc &&& 0x20) != 0
/-- rtcp/packet.go:225-227 `C`. -/
def RtcpPacket.c (p : RtcpPacket) : UInt8 := p.vpc &&& 0x1F

/-- rtcp/packet.go:189-217 `Unpack`. -/
def rtcpUnpack (buf : Bytes) : Go (Except RtpErr RtcpPacket) := do
  let b0 ← idx buf 0
  let b1 ← idx buf 1
  let ln ← u16At buf 2
  if (b0 &&& 0xC0) != 0x80 then return .error .invalidVersion
  if b1 == 200 then
    if buf.length < 28 + (b0 &&& 0x1F).toNat * 24 then return .error .packetTooShort
    let ssrc ← u32At buf 4
    let ntp ← u64At buf (4 + 4)
    let rts ← u32At buf (4 + 12)
    let pc ← u32At buf (4 + 16)
    let oc ← u32At buf (4 + 20)
    return .ok { vpc := b0, pt := b1, ln := ln, dsr := some { ssrc := ssrc, ntpts := ntp, rtpts := rts, pc := pc, oc := oc } }
  return .ok { vpc := b0, pt := b1, ln := ln, dsr := none }

end Ouro
