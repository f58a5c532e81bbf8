import Verif.Spec.Rtp3550
/-!
# Specification: compound RTCP packets (RFC 3550, 6.1)

Independent of the model.
-/
namespace Ouro.Spec

/-- An RTCP packet of any type; `body` is all that follows the first four bytes. -/
structure RtcpWire where
  padding : Bool
  count : Nat
  pt : UInt8
  body : List UInt8
  deriving DecidableEq, Repr

/-- Field ranges; the body is a whole number of words, as many as the length field can say; a sender report (200) has its sender information
and its report blocks. -/
structure RtcpWire.Valid (p : RtcpWire) : Prop where
  count : p.count < 32
  words : p.body.length % 4 = 0
  length : p.body.length / 4 < 65536
  report : p.pt = 200 → 24 + 24 * p.count ≤ p.body.length

/-- On the wire. -/
def RtcpWire.encode (p : RtcpWire) : List UInt8 := rtcpHeader p.padding p.count p.pt (p.body.length / 4) ++ p.body

/-- Several packets in one frame. -/
def compound (ps : List RtcpWire) : List UInt8 := ps.flatMap RtcpWire.encode

end Ouro.Spec
