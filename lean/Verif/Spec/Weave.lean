import Verif.Spec.Streams
/-!
# Specification: streams that take turns with their fragments, for C104

Independent of the model.
-/
namespace Ouro.Spec

/-- The packet carries a fragment of a unit (FU-A). -/
def carriesPiece (p : UInt8 × RtpWire) : Bool :=
  match p.2.body with
  | b :: _ => b &&& 0x1F = 28
  | [] => false

/-- The fragment is the last of its unit. -/
def endsUnit (p : UInt8 × RtpWire) : Bool :=
  match p.2.body with
  | _ :: b :: _ => b &&& 0x40 ≠ 0
  | _ => false

/-- Between the first and the last fragment of a unit there are no fragments of other streams (there may be units of theirs in one packet). `busy`: the channel on
which a unit has begun and not ended. -/
def TakeTurns : Option UInt8 → List (UInt8 × RtpWire) → Prop
  | _, [] => True
  | busy, p :: ps =>
    if carriesPiece p = true then (∀ ch ∈ busy, ch = p.1) ∧ TakeTurns (if endsUnit p then none else some p.1) ps
    else TakeTurns busy ps

/-- What is on a channel. -/
def onChannel {α : Type} (ch : UInt8) (l : List (UInt8 × α)) : List (UInt8 × α) := l.filter fun p => p.1 = ch

end Ouro.Spec
