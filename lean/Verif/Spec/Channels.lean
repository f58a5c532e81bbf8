import Verif.Spec.Depacketize
import Verif.Spec.Compound
/-!
# Specification: what a server sends for a stream with the interleaved channels `a` and `b` (RFC 2326, section 10.12)

Independent of the model. The first channel of the pair carries the RTP packets, the second the RTCP packets of the stream.
-/
namespace Ouro.Spec

/-- An RTP packet with its payload, or an RTCP packet and what follows it in the frame. -/
inductive Carried
  | media (rtp : RtpWire) (load : Load)
  | control (first : RtcpWire) (more : List UInt8)

/-- The frame it is sent in: channel and bytes. -/
def Carried.frame (a b : UInt8) : Carried → UInt8 × List UInt8
  | .media rtp _ => (a, rtp.encode)
  | .control first more => (b, first.encode ++ more)

/-- A well-formed RTP packet whose body is the wire form of the payload, but for the emulation prevention bytes, and has no start code; a
well-formed RTCP packet. -/
def Carried.Valid : Carried → Prop
  | .media rtp load => rtp.Valid ∧ ¬ [0, 0, 1] <:+: rtp.body ∧ unescape 0 rtp.body = load.bytes ∧ load.Valid
  | .control first _ => first.Valid

/-- The RTP packets among what was sent. -/
def mediaOf (a : UInt8) : List Carried → List Video
  | [] => []
  | .media rtp load :: rest => ⟨a, rtp, load⟩ :: mediaOf a rest
  | .control _ _ :: rest => mediaOf a rest

end Ouro.Spec
