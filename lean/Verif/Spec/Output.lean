import Verif.Model.Log
/-! # Reading what the client prints -/
namespace Ouro.Spec

/-- The lines of a text. -/
def textLines : Bytes → List Bytes
  | [] => [[]]
  | c :: t =>
    if c = 10 then [] :: textLines t
    else match textLines t with
      | [] => [[c]]
      | l :: ls => (c :: l) :: ls

/-- A date and time as the package `log` writes them, such as `2009/01/23 01:23:23 `. -/
def isStamp (s : Bytes) : Bool :=
  s.length == 20 && (s.zip b!"0000/00/00 00:00:00 ").all fun (c, p) => if p = 48 then 48 ≤ c && c ≤ 57 else c == p

/-- What a line says about a NAL unit: the text after the date and time, if that begins with `NAL `. -/
def unitLine (line : Bytes) : Option Bytes :=
  if isStamp (line.take 20) && b!"NAL ".isPrefixOf (line.drop 20) then some (line.drop 20) else none

/-- What the lines of a text say about NAL units. -/
def unitsShown (out : Bytes) : List Bytes := (textLines out).filterMap unitLine

/-- What should be said about a unit: the bit that is always zero, the importance, the type, and the number of bytes after the header. -/
def unitText (u : NALUnit) : Bytes :=
  b!"NAL Zero=" ++ (if u.header < 128 then b!"true" else b!"false") ++ b!", RefIdc=" ++ natDigits (u.header.toNat / 32 % 4) ++ b!", Type=" ++
  natDigits (u.header.toNat % 32) ++ b!", Size=" ++ natDigits u.data.length ++ b!"\r"

/-- The units that the client was given, oldest first; the trace is latest first. -/
def unitsReported (t : List Act) : List NALUnit := t.reverse.filterMap fun a => match a with | .unit u => some u | _ => none

/-- The bodies of the responses that were read, oldest first. -/
def bodiesRead (t : List Act) : List Bytes := t.reverse.filterMap fun a => match a with | .wire (.got rsp) => rsp.body | _ => none

/-- What is to be expected in the output, in order: a line for each unit, and in between what the bodies of the responses say. A body is printed with a line
end after it. -/
def unitsExpected (t : List Act) : List Bytes :=
  t.reverse.flatMap fun a => match a with
    | .unit u => [unitText u]
    | .wire (.got rsp) => (match rsp.body with | none => [] | some b => unitsShown (b ++ [13]))
    | _ => []

/-- The dates and times are dates and times, and the texts of errors are lines that do not begin with `NAL `. -/
structure Sane (lw : LogWorld) : Prop where
  stamp : ∀ n, isStamp (lw.stamp n) = true
  line : ∀ n, (10 : UInt8) ∉ lw.text n
  other : ∀ n, ¬ b!"NAL " <+: lw.text n

/-- The headers are iterated in some order, each once. -/
def Complete (ord : Orders) : Prop := (∀ q, (ord.req q).Perm q.header) ∧ ∀ rsp, (ord.rsp rsp).Perm rsp.header

end Ouro.Spec
