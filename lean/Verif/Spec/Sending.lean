import Verif.Spec.NalUnits
import Verif.Spec.Rtp3550
/-!
# Specification: a sender of H.264 units in single NAL unit packets and FU-A fragments (RFC 6184, packetization mode 1)

Independent of the model.
-/
namespace Ouro.Spec

/-- How a unit is sent: in one packet, or cut into at least two fragments. -/
inductive Way
  | whole
  | cut (first : List UInt8) (mids : List (List UInt8)) (last : List UInt8)

/-- A unit to be sent at an RTP time. -/
structure Sending where
  unit : Nal
  way : Way
  ts : Nat

/-- The pieces of the unit's data, as they are sent. -/
def Sending.pieces (s : Sending) : List (List UInt8) :=
  match s.way with
  | .whole => [s.unit.data]
  | .cut first mids last => first :: (mids ++ [last])

/-- A legal unit, of a type that is no packet type, with the forbidden bit clear; the pieces are pieces of its data. -/
def Sending.Ok (s : Sending) : Prop :=
  Legal s.unit ∧ s.unit.header &&& 0x80 = 0 ∧ s.unit.header &&& 0x1F ∉ [24, 25, 26, 27, 28, 29] ∧ s.unit.data = s.pieces.flatten

/-- The RTP payloads of the packets that carry it. -/
def Sending.payloads (s : Sending) : List (List UInt8) :=
  match s.way with
  | .whole => [s.unit.bytes]
  | .cut first mids last =>
    fuA s.unit.header true false first :: (mids.map (fuA s.unit.header false false) ++ [fuA s.unit.header false true last])

/-- A packet on a video channel with the payload and the time: unpadded RTP, all other fields as the sender likes. -/
def IsPacket (body : List UInt8) (ts : Nat) (p : UInt8 × RtpWire) : Prop :=
  p.1 % 2 = 0 ∧ p.2.Valid ∧ p.2.padding = false ∧ p.2.body = body ∧ p.2.ts = ts

/-- The packets that carry a unit, in order. -/
inductive PacketsOf (ts : Nat) : List (List UInt8) → List (UInt8 × RtpWire) → Prop
  | nil : PacketsOf ts [] []
  | cons {body p bodies ps} : IsPacket body ts p → PacketsOf ts bodies ps → PacketsOf ts (body :: bodies) (p :: ps)

/-- The packets that carry a sequence of units, one unit after the other. -/
inductive Sends264 : List Sending → List (UInt8 × RtpWire) → Prop
  | nil : Sends264 [] []
  | cons {s ps ss qs} : s.Ok → PacketsOf s.ts s.payloads ps → Sends264 ss qs → Sends264 (s :: ss) (ps ++ qs)

/-- The unit as sent. -/
def Sending.asSent (s : Sending) : UInt8 × Nat × List UInt8 := (s.unit.header, s.ts, s.unit.data)

/-- The unit with the emulation prevention bytes of each piece removed. -/
def Sending.unescaped (s : Sending) : UInt8 × Nat × List UInt8 := (s.unit.header, s.ts, s.pieces.flatMap (unescape 0))

end Ouro.Spec
