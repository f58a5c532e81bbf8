import Verif.Spec.Message
/-! # Which responses are well-formed enough to be accepted -/
namespace Ouro.Spec

/-- A status code, RFC 2326 7.1.1: three digits. -/
def ThreeDigits (c : Bytes) (n : Int) : Prop :=
  ∃ x y z : UInt8, c = [x, y, z] ∧ isDigit x = true ∧ isDigit y = true ∧ isDigit z = true ∧ n = (x.toNat - 48 : Nat) * 100 + (y.toNat - 48 : Nat) * 10 + (z.toNat - 48 : Nat)

/-- Two digits after a plus sign, or `-00`. -/
def SignedCode (c : Bytes) (n : Int) : Prop :=
  (∃ y z : UInt8, c = [43, y, z] ∧ isDigit y = true ∧ isDigit z = true ∧ n = (y.toNat - 48 : Nat) * 10 + (z.toNat - 48 : Nat)) ∨ (c = b!"-00" ∧ n = 0)

/-- A status line (without its line feed): the version, a space, and text whose first word has the property `code`. -/
def StatusTextOf (version : Bytes) (code : Bytes → Prop) (line : Bytes) : Prop :=
  ∃ rest word tail, line = version ++ b!" " ++ rest ∧ trimSpace (rest ++ [10]) = word ++ tail ∧ (32 : UInt8) ∉ word ∧ (tail = [] ∨ tail.head? = some 32) ∧ code word

/-- A status line of RTSP 1.0. -/
def StatusText (code : Bytes → Prop) (line : Bytes) : Prop := StatusTextOf b!"RTSP/1.0" code line

/-- A line that is neither empty nor blank. -/
def NotBlank (line : Bytes) : Prop := trimSpace (line ++ [10]) ≠ []

/-- A header line: it has a colon. -/
def HasColon (line : Bytes) : Prop := (58 : UInt8) ∈ trimSpace (line ++ [10])

/-- The text of lines. -/
def linesText (ls : List Bytes) : Bytes := ls.flatMap fun l => l ++ [10]

end Ouro.Spec
