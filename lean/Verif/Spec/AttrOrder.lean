import Verif.Spec.Sdp
/-! # Specification: the order of the lines of a section -/
namespace Ouro.Spec

/-- A video section: its first line, and the lines after it, none of which starts another section. -/
structure IsVideoSection (first : Bytes) (lines : List Bytes) : Prop where
  video : isVideoLine first = true
  same : ∀ l ∈ lines, isMLine l = false
  lines : ∀ l ∈ first :: lines, (10 : UInt8) ∉ l

/-- The lines after the first one of a section may be put in any order: a description of that section alone reads the same. -/
def AnyOrder (parse : Bytes → Except Panic α) (first : Bytes) (lines : List Bytes) : Prop :=
  ∀ lines', lines'.Perm lines → parse (unlines (first :: lines')) = parse (unlines (first :: lines))

/-- Two lines may be exchanged, in a section that has only these. -/
def Exchange (parse : Bytes → Except Panic α) (first a b : Bytes) : Prop :=
  parse (unlines [first, a, b]) = parse (unlines [first, b, a])

end Ouro.Spec
