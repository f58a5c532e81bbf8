import Verif.Spec.Rtp6184
/-!
# Specification: RTP and RTCP wire formats (RFC 3550, sections 5.1, 5.3.1, 6.4.1)

Independent of the model.
-/
namespace Ouro.Spec

/-- Big-endian 32-bit number. -/
def be32 (n : Nat) : List UInt8 :=
  [UInt8.ofNat (n / 16777216), UInt8.ofNat (n / 65536), UInt8.ofNat (n / 256), UInt8.ofNat n]
/-- Big-endian 64-bit number. -/
def be64 (n : Nat) : List UInt8 := be32 (n / 4294967296) ++ be32 n

/-- An RTP packet as sent. `body` is the payload followed by the padding, if any. -/
structure RtpWire where
  padding : Bool
  marker : Bool
  pt : Nat
  sn : Nat
  ts : Nat
  ssrc : Nat
  csrc : List Nat
  /-- Profile-defined 16 bits and the extension data. -/
  ext : Option (Nat × List UInt8)
  body : List UInt8
  deriving DecidableEq, Repr

def bit (b : Bool) (n : Nat) : Nat := if b then n else 0

/-- Field ranges. -/
structure RtpWire.Valid (p : RtpWire) : Prop where
  pt : p.pt < 128
  sn : p.sn < 65536
  ts : p.ts < 2 ^ 32
  ssrc : p.ssrc < 2 ^ 32
  cc : p.csrc.length ≤ 15
  csrc : ∀ c ∈ p.csrc, c < 2 ^ 32
  ext : ∀ e ∈ p.ext, e.1 < 65536 ∧ e.2.length % 4 = 0 ∧ e.2.length / 4 < 65536

def RtpWire.extBytes (p : RtpWire) : List UInt8 :=
  match p.ext with
  | none => []
  | some (h, d) => be16 h ++ be16 (d.length / 4) ++ d

/-- Section 5.1: V=2, P, X, CC; M, PT; sequence number; timestamp; SSRC; CSRC list; extension; payload. -/
def RtpWire.encode (p : RtpWire) : List UInt8 :=
  UInt8.ofNat (128 + bit p.padding 32 + bit p.ext.isSome 16 + p.csrc.length) :: UInt8.ofNat (bit p.marker 128 + p.pt) ::
    (be16 p.sn ++ be32 p.ts ++ be32 p.ssrc ++ p.csrc.flatMap be32 ++ p.extBytes ++ p.body)

/-- Section 5.1: with the padding bit set the last octet counts the padding octets, which are not part of the payload. -/
def RtpWire.payload (p : RtpWire) : List UInt8 :=
  if p.padding then p.body.take (p.body.length - (p.body.getLast?.getD 0).toNat) else p.body

/-- The sender information of an RTCP sender report. -/
structure SenderInfo where
  ssrc : Nat
  ntp : Nat
  rtp : Nat
  packets : Nat
  octets : Nat
  deriving DecidableEq, Repr

structure SenderInfo.Valid (i : SenderInfo) : Prop where
  ssrc : i.ssrc < 2 ^ 32
  ntp : i.ntp < 2 ^ 64
  rtp : i.rtp < 2 ^ 32
  packets : i.packets < 2 ^ 32
  octets : i.octets < 2 ^ 32

/-- RTCP header: V=2, P, count; packet type; length. -/
def rtcpHeader (padding : Bool) (count : Nat) (pt : UInt8) (len : Nat) : List UInt8 :=
  UInt8.ofNat (128 + bit padding 32 + count) :: pt :: be16 len

/-- Section 6.4.1: sender report with `rest` for the report blocks and extensions. -/
def senderReport (padding : Bool) (count : Nat) (len : Nat) (i : SenderInfo) (rest : List UInt8) : List UInt8 :=
  rtcpHeader padding count 200 len ++
    (be32 i.ssrc ++ be64 i.ntp ++ be32 i.rtp ++ be32 i.packets ++ be32 i.octets ++ rest)

end Ouro.Spec
