import Verif.Spec.AnnexB
import Verif.Spec.Rtp3550
/-!
# Specification: what a sequence of H.264 RTP packets stands for (RFC 6184, sections 5.6-5.8)

Independent of the model. Units are given as header, timestamp and data.
-/
namespace Ouro.Spec

/-- The payload of a video packet. MTAP24 is not here. -/
inductive Load
  | single (u : Nal)
  | stapA (f : UInt8) (us : List Nal)
  | stapB (f : UInt8) (don : Nat) (us : List Nal)
  | mtap16 (f : UInt8) (donb : Nat) (us : List MtapNal)
  | fuA (header : UInt8) (start last : Bool) (piece : List UInt8)
  | fuB (header : UInt8) (start last : Bool) (don : Nat) (piece : List UInt8)
  deriving DecidableEq, Repr

/-- On the wire. -/
def Load.bytes : Load → List UInt8
  | .single u => u.bytes
  | .stapA f us => Spec.stapA f us
  | .stapB f don us => Spec.stapB f don us
  | .mtap16 f donb us => Spec.mtap16 f donb us
  | .fuA h s e piece => Spec.fuA h s e piece
  | .fuB h s e don piece => Spec.fuB h s e don piece

/-- Field ranges; a single unit has a type that is no packet type, the forbidden bit of a fragmented unit is clear. -/
def Load.Valid : Load → Prop
  | .single u => u.header &&& 0x1F ∉ [24, 25, 26, 27, 28, 29]
  | .stapA _ us => ∀ u ∈ us, u.size ≤ 65533
  | .stapB _ don us => don < 65536 ∧ ∀ u ∈ us, u.size ≤ 65533
  | .mtap16 _ donb us => donb < 65536 ∧ ∀ u ∈ us, u.nal.size ≤ 65530 ∧ u.tsOff < 65536
  | .fuA h _ _ _ => h &&& 0x80 = 0
  | .fuB h _ _ don _ => h &&& 0x80 = 0 ∧ don < 65536

/-- The pieces since the last start of a fragmented unit, put together. -/
def Load.kept (before : List UInt8) : Load → List UInt8
  | .fuA _ start _ piece => (if start then [] else before) ++ piece
  | .fuB _ start _ _ piece => (if start then [] else before) ++ piece
  | _ => before

/-- The units that are complete with a packet received at RTP time `ts`. -/
def Load.units (before : List UInt8) (ts : Nat) : Load → List (UInt8 × Nat × List UInt8)
  | .single u => [(u.header, ts, u.data)]
  | .stapA _ us => us.map fun u => (u.header, ts, u.data)
  | .stapB _ _ us => us.map fun u => (u.header, ts, u.data)
  | .mtap16 _ _ us => us.map fun u => (u.nal.header, (ts + u.tsOff) % 2 ^ 32, u.nal.data)
  | .fuA h start last piece => if last then [(h, ts, (if start then [] else before) ++ piece)] else []
  | .fuB h start last _ piece => if last then [(h, ts, (if start then [] else before) ++ piece)] else []

/-- A video packet: RTP header fields and the payload. -/
structure Video where
  ch : UInt8
  rtp : RtpWire
  load : Load

/-- An RTP packet on an even channel whose body (what follows the header: the payload, and the padding, if there is any) has no
start code and, without its emulation prevention bytes, is the wire form of the load. A body without `00 00 03` is the wire
form itself. -/
structure Video.Valid (v : Video) : Prop where
  even : v.ch % 2 = 0
  rtp : v.rtp.Valid
  start : ¬ [0, 0, 1] <:+: v.rtp.body
  body : unescape 0 v.rtp.body = v.load.bytes
  load : v.load.Valid

/-- The pieces kept after a sequence of packets. -/
def keptAfter (before : List UInt8) : List Video → List UInt8
  | [] => before
  | v :: vs => keptAfter (v.load.kept before) vs

/-- All units of a sequence of packets. -/
def depacketize (before : List UInt8) : List Video → List (UInt8 × Nat × List UInt8)
  | [] => []
  | v :: vs => v.load.units before v.rtp.ts ++ depacketize (v.load.kept before) vs

end Ouro.Spec
