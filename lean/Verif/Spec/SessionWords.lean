import Verif.Model.SessionWords
/-! # The session identifier when several goroutines use it -/
namespace Ouro.Spec

/-- The identifier in a Session header (RFC 2326, 12.37): what comes before the first semicolon. -/
def identifier (value : Bytes) : Bytes := value.takeWhile (· ≠ 59)

/-- Session headers the server sent during a schedule. -/
def sessionHeaders : List WTurn → List Bytes
  | [] => []
  | .response v :: ts => if v = [] then sessionHeaders ts else v :: sessionHeaders ts
  | _ :: ts => sessionHeaders ts

/-- Call `i` has loaded both words. -/
def Loaded (s : Racing) (i : Nat) : Prop := ∃ p l, s.reads[i]? = some (some p, some l)

/-- One of two words has been stored; one of two words has been loaded. -/
def HalfWritten (s : Racing) : Prop := (s.ptrLeft = none ∧ s.lenLeft ≠ none) ∨ (s.ptrLeft ≠ none ∧ s.lenLeft = none)
def HalfRead (s : Racing) : Prop := ∃ r ∈ s.reads, (r.1 = none ∧ r.2 ≠ none) ∨ (r.1 ≠ none ∧ r.2 = none)

/-- A schedule in which no assignment to the identifier overlaps with a reading of it. -/
def KeptApart (s : Racing) (ts : List WTurn) : Prop := ∀ p, p <+: ts → HalfWritten (wturns s p) → ¬ HalfRead (wturns s p)

/-- A session that has the identifier of a header. -/
def established (v : Bytes) : Racing := { headers := [v], ptr := 1, len := (identifier v).length }

end Ouro.Spec
