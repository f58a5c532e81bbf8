import Verif.Spec.Sending
/-!
# Specification: packets that are lost on the way

Independent of the model.
-/
namespace Ouro.Spec

/-- What arrives of a sequence of units when packets are lost. Of each unit either every packet arrives (`true`), or some of
them do, in order, and some are lost (`false`); `how` says what may be lost, of the packets `got` and those sent. -/
inductive Arrived264 (how : List (UInt8 × RtpWire) → List (UInt8 × RtpWire) → Prop) : List (Sending × Bool) → List (UInt8 × RtpWire) → Prop
  | nil : Arrived264 how [] []
  | whole {s ps ss qs} : s.Ok → PacketsOf s.ts s.payloads ps → Arrived264 how ss qs → Arrived264 how ((s, true) :: ss) (ps ++ qs)
  | lossy {s ps got ss qs} : s.Ok → PacketsOf s.ts s.payloads ps → got.Sublist ps → got ≠ ps → how got ps → Arrived264 how ss qs →
      Arrived264 how ((s, false) :: ss) (got ++ qs)

/-- The units that arrived complete. -/
def complete (ss : List (Sending × Bool)) : List Sending := (ss.filter (·.2)).map (·.1)

/-- The last packet of the unit is among the lost ones. -/
def LastLost (got ps : List (UInt8 × RtpWire)) : Prop := got.Sublist ps.dropLast

end Ouro.Spec
