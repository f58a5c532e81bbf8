import Verif.Spec.Sending
/-!
# Specification: a sender of H.264 units that pads its RTP packets (RFC 3550, section 5.1)
-/
namespace Ouro.Spec

/-- A unit to be sent at an RTP time: in one packet, or cut into fragments, each with the octets its packet is padded with. -/
structure PadSending where
  unit : Nal
  pieces : List (List UInt8 × List UInt8)
  ts : Nat

/-- Padding: none, or octets the last of which says how many they are. -/
def IsPadding (pad : List UInt8) : Prop := pad = [] ∨ pad.getLast?.map UInt8.toNat = some pad.length

/-- A legal unit, of a type that is no packet type, with the forbidden bit clear; the pieces are pieces of its data, and the
padding of none of them makes a start code. -/
structure PadSending.Ok (s : PadSending) : Prop where
  legal : Legal s.unit
  forbidden : s.unit.header &&& 0x80 = 0
  type : s.unit.header &&& 0x1F ∉ [24, 25, 26, 27, 28, 29]
  nonempty : s.pieces ≠ []
  data : s.unit.data = (s.pieces.map (·.1)).flatten
  padding : ∀ p ∈ s.pieces, IsPadding p.2
  start : ∀ p ∈ s.pieces, ¬ [0, 0, 1] <:+: p.1 ++ p.2

/-- The payloads and paddings of the fragments after the first. -/
def laterFragments (header : UInt8) : List (List UInt8 × List UInt8) → List (List UInt8 × List UInt8)
  | [] => []
  | [p] => [(fuA header false true p.1, p.2)]
  | p :: ps => (fuA header false false p.1, p.2) :: laterFragments header ps

/-- The payloads and paddings of the packets: the unit itself, or a start fragment, middle ones and an end fragment. -/
def PadSending.payloads (s : PadSending) : List (List UInt8 × List UInt8) :=
  match s.pieces with
  | [] => []
  | [p] => [(s.unit.header :: p.1, p.2)]
  | p :: ps => (fuA s.unit.header true false p.1, p.2) :: laterFragments s.unit.header ps

/-- A packet on a video channel with the payload, the padding and the time. -/
def IsPadPacket (body : List UInt8 × List UInt8) (ts : Nat) (p : UInt8 × RtpWire) : Prop :=
  p.1 % 2 = 0 ∧ p.2.Valid ∧ p.2.padding = !body.2.isEmpty ∧ p.2.payload = body.1 ∧ p.2.body = body.1 ++ body.2 ∧ p.2.ts = ts

/-- The packets that carry a unit, in order. -/
inductive PadPacketsOf (ts : Nat) : List (List UInt8 × List UInt8) → List (UInt8 × RtpWire) → Prop
  | nil : PadPacketsOf ts [] []
  | cons {body p bodies ps} : IsPadPacket body ts p → PadPacketsOf ts bodies ps → PadPacketsOf ts (body :: bodies) (p :: ps)

/-- The packets that carry a sequence of units, one unit after the other. -/
inductive SendsPadded : List PadSending → List (UInt8 × RtpWire) → Prop
  | nil : SendsPadded [] []
  | cons {s ps ss qs} : s.Ok → PadPacketsOf s.ts s.payloads ps → SendsPadded ss qs → SendsPadded (s :: ss) (ps ++ qs)

/-- The unit as sent. -/
def PadSending.asSent (s : PadSending) : UInt8 × Nat × List UInt8 := (s.unit.header, s.ts, s.unit.data)

/-- The unit with the padding of each packet as part of its data, and the emulation prevention bytes of each packet removed. -/
def PadSending.padded (s : PadSending) : UInt8 × Nat × List UInt8 :=
  (s.unit.header, s.ts, s.pieces.flatMap fun p => unescape 0 (p.1 ++ p.2))

end Ouro.Spec
