import Verif.Model.Chunks
/-! # When two connections deliver the same -/
namespace Ouro.Spec

/-- What a connection delivers, byte by byte: pieces are put together, expired deadlines and errors stay where they are. -/
def delivered : List Rd → List Ev
  | [] => []
  | .data b more :: t => .byte b :: (more.map .byte ++ delivered t)
  | .timeout :: t => .timeout :: delivered t
  | .reset :: t => .reset :: delivered t

/-- The same bytes, cut into pieces in two ways. -/
def SameStream (a b : List Rd) : Prop := delivered a = delivered b

/-- What the client has done, but not the reader. -/
def clientOf {ρ : Type} (x : Go (ρ × Client)) : Go Client := x.map Prod.snd

end Ouro.Spec
