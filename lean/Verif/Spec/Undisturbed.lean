import Verif.Model.Session
/-! # Specification: a session's dialogue apart from the media packets -/
namespace Ouro.Spec

/-- Not a media packet. -/
def notData : Out → Bool
  | .data .. => false
  | _ => true

/-- What happened but for the media packets. -/
def dialogue (o : List Out) : List Out := o.filter notData

/-- Not the arrival of a media packet. -/
def notFrame : Op → Bool
  | .item (.frame ..) => false
  | _ => true

/-- The server, the clock and the network do not go by the media packets delivered. -/
structure Blind (w : World) : Prop where
  rnd : ∀ o, w.rnd (dialogue o) = w.rnd o
  write : ∀ o b, w.write (dialogue o) b = w.write o b
  listen : ∀ o k p, w.listen (dialogue o) k p = w.listen o k p

end Ouro.Spec
