import Verif.Spec.Sending
/-!
# Specification: packets of several streams, and packets out of order

Independent of the model.
-/
namespace Ouro.Spec

/-- Two sequences put together, each in its own order. -/
inductive Merged {α : Type} : List α → List α → List α → Prop
  | nil : Merged [] [] []
  | left {a as bs cs} : Merged as bs cs → Merged (a :: as) bs (a :: cs)
  | right {b as bs cs} : Merged as bs cs → Merged as (b :: bs) (b :: cs)

/-- Every packet is on the channel. -/
def OnChannel (ch : UInt8) (ps : List (UInt8 × RtpWire)) : Prop := ∀ p ∈ ps, p.1 = ch

/-- The sequence numbers go up by one from packet to packet, modulo 2^16. -/
def Numbered : List (UInt8 × RtpWire) → Prop
  | p :: q :: ps => q.2.sn = (p.2.sn + 1) % 65536 ∧ Numbered (q :: ps)
  | _ => True

end Ouro.Spec
