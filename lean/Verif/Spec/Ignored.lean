import Verif.Spec.Sdp
/-! # Specification: which attributes of a description tell something -/
namespace Ouro.Spec

/-- The line, without surrounding white space, starts with `a=`. -/
def isALine (line : Bytes) : Bool := (b!"a=").isPrefixOf (trimSpace line)

/-- The word of an attribute (what is before the first space, or what is after it) that tells something about a stream: it gives the address or the
format, or there is a name of a codec before its first slash or a number after it, or it has semicolons and one of the parts is a parameter in use. -/
inductive Informs : Bytes → Prop
  | control (v : Bytes) : Informs (b!"control:" ++ v)
  | rtpmap (v : Bytes) : Informs (b!"rtpmap:" ++ v)
  | codec (k n : Bytes) (rest : List Bytes) (f : Bytes) : split 47 f = k :: n :: rest → toUpper k = b!"H264" ∨ toUpper k = b!"MPEG4-GENERIC" → Informs f
  | clock (k n : Bytes) (rest : List Bytes) (f : Bytes) : split 47 f = k :: n :: rest → (atoi n).2 = none → Informs f
  | param (k v f : Bytes) : (59 : UInt8) ∈ f → k ++ 61 :: v ∈ split 59 f → (61 : UInt8) ∉ k →
      trimSpace k ∈ [b!"config", b!"sizelength", b!"indexlength", b!"sprop-parameter-sets"] → Informs f

/-- The line makes no difference, wherever it is put. -/
def NoDifference (parse : Bytes → Except Panic α) (line : Bytes) : Prop :=
  ∀ before after : List Bytes, (∀ l ∈ before ++ after, (10 : UInt8) ∉ l) → parse (unlines (before ++ line :: after)) = parse (unlines (before ++ after))

end Ouro.Spec
