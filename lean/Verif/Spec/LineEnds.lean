import Verif.Go.Basic
/-! # Ends of lines (RFC 2326, 4; RFC 4566, 5), for C149 -/
namespace Ouro.Spec

/-- The ways to end a line. -/
inductive LineEnd
  | crlf | lf | cr
  deriving DecidableEq

def LineEnd.bytes : LineEnd → Bytes
  | .crlf => [13, 10]
  | .lf => [10]
  | .cr => [13]

/-- Lines, each written with its own end. -/
def written : List Bytes → List LineEnd → Bytes
  | l :: ls, e :: es => l ++ e.bytes ++ written ls es
  | _, _ => []

end Ouro.Spec
