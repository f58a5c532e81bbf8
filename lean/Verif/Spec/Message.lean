import Verif.Spec.Digest
import Verif.Model.Message
/-!
# RTSP messages (RFC 2326, sections 4-7), stated independently of the code
-/
namespace Ouro.Spec

/-! ## Header names -/

/-- The characters names may consist of, RFC 7230 section 3.2.6. -/
def tokenChars : Bytes := b!"!#$%&'*+-.0123456789ABCDEFGHIJKLMNOPQRSTUVWXYZ^_`abcdefghijklmnopqrstuvwxyz|~"

/-- A header name: a non-empty sequence of token characters. -/
def IsName (s : Bytes) : Prop := s ≠ [] ∧ ∀ c ∈ s, isToken c = true

/-- The same name in any letter case. -/
def sameName (a b : Bytes) : Prop := lowerAscii a = lowerAscii b

instance (a b : Bytes) : Decidable (sameName a b) := inferInstanceAs (Decidable (_ = _))

/-- Changes of a header. -/
inductive HdrOp
  | set (name value : Bytes)
  | del (name : Bytes)

def HdrOp.name : HdrOp → Bytes
  | .set n _ => n
  | .del n => n

/-- The value most recently set under a name and not deleted since: the history is given latest change first. -/
def latest (name : Bytes) : List HdrOp → Option Bytes
  | [] => none
  | .set n v :: older => if sameName n name then some v else latest name older
  | .del n :: older => if sameName n name then none else latest name older

/-! ## Requests as a server reads them -/

/-- What a server gets from a request. -/
structure Received where
  verb : Bytes
  uri : Bytes
  version : Bytes
  headers : List (Bytes × Bytes)
  body : Bytes
  deriving DecidableEq, Repr

/-- Read `name: value` lines up to the empty line; the lines after it are the rest. -/
def readHeaders : List Bytes → Option (List (Bytes × Bytes) × List Bytes)
  | [] => none
  | [] :: rest => some ([], rest)
  | line :: rest =>
    match splitN2 58 line with
    | [name, 32 :: value] =>
      match readHeaders rest with
      | some (hs, rest) => some ((name, value) :: hs, rest)
      | none => none
    | _ => none

/-- A server's reading of a request: lines end with CR LF, the first has three words, an empty line ends the header. -/
def serverRead (text : Bytes) : Option Received :=
  match split2 13 10 text with
  | [] => none
  | first :: rest =>
    match split 32 first, readHeaders rest with
    | [verb, uri, version], some (hs, [body]) => some ⟨verb, uri, version, hs, body⟩
    | _, _ => none

/-- A word of the request line: no space, no CR. -/
def IsWord (s : Bytes) : Prop := (32 : UInt8) ∉ s ∧ (13 : UInt8) ∉ s

/-! ## Responses as a server writes them -/

/-- A line of text: no line feed, first and last character visible. -/
def IsText (v : Bytes) : Prop :=
  (10 : UInt8) ∉ v ∧ (∀ a, v.head? = some a → visible a = true) ∧ (∀ z, v.getLast? = some z → visible z = true)

/-- A header as written: the name, a colon, optional blanks, the value. -/
structure SentHeader where
  name : Bytes
  blanks : Bytes
  value : Bytes

def SentHeader.WF (h : SentHeader) : Prop := IsName h.name ∧ (∀ c ∈ h.blanks, c = 32 ∨ c = 9) ∧ IsText h.value

def SentHeader.text (h : SentHeader) : Bytes := h.name ++ b!":" ++ h.blanks ++ h.value ++ [13, 10]

/-- A response as a server means it. -/
structure Sent where
  code : Nat
  reason : Bytes
  headers : List SentHeader
  body : Bytes

def Sent.text (s : Sent) : Bytes :=
  b!"RTSP/1.0 " ++ natDigits s.code ++ b!" " ++ s.reason ++ [13, 10] ++ s.headers.flatMap SentHeader.text ++ [13, 10] ++ s.body

/-- The value of a header: the last one given under that name, in any letter case. -/
def Sent.value (s : Sent) (name : Bytes) : Option Bytes :=
  (s.headers.reverse.find? fun h => sameName h.name name).map (·.value)

/-- Well-formed: three-digit status, text in the right places, and the body announced with its length (which may be left out if
there is none). -/
structure Sent.WF (s : Sent) : Prop where
  code : 100 ≤ s.code ∧ s.code ≤ 999
  reason : IsText s.reason
  headers : ∀ h ∈ s.headers, h.WF
  body : s.value b!"Content-Length" = some (natDigits s.body.length) ∨ (s.body = [] ∧ s.value b!"Content-Length" = none)

end Ouro.Spec
