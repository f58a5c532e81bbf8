import Verif.Spec.Message
/-!
# What a server reads from a connection

One request after the other: a request ends with the first empty line (the client never sends a body).
-/
namespace Ouro.Spec

/-- Cut a text after its first empty line. -/
def cutHead : Bytes → Option (Bytes × Bytes)
  | [] => none
  | c :: t =>
    if [13, 10, 13, 10] <+: c :: t then some ((c :: t).take 4, (c :: t).drop 4)
    else (cutHead t).map fun p => (c :: p.1, p.2)

/-- At most `n` requests, and what is left. -/
def readSome : Nat → Bytes → List Received × Bytes
  | 0, text => ([], text)
  | n + 1, text =>
    match cutHead text with
    | none => ([], text)
    | some (head, rest) =>
      match serverRead head with
      | none => ([], text)
      | some m => (m :: (readSome n rest).1, (readSome n rest).2)

/-- All requests a server can read from the bytes sent to it, and what is left: the start of another one, or something it does not
understand. There are no more requests than bytes. -/
def serverReads (text : Bytes) : List Received × Bytes := readSome text.length text

/-- A description in which no control value can have a blank or a carriage return: carriage returns are at the ends of lines only, and
no line has a word that starts with `control:` after a blank. -/
def PlainBody (body : Bytes) : Prop :=
  ∀ line ∈ split 10 body, (∃ t, (line = t ∨ line = t ++ [13]) ∧ (13 : UInt8) ∉ t) ∧ ¬ b!" control:" <:+: line

end Ouro.Spec
