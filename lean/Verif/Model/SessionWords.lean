import Verif.Go.Strings
/-!
# Model of the session identifier of net/rtsp/session.go as two words of memory

A Go string is two words, where its bytes are and how many. `process` assigns `s.session` without the lock; `enqueue` of a command in another
goroutine reads it. Here each step stores or loads one word, in either order; memory is sequentially consistent. Model/Session has both as one
step.
-/
namespace Ouro

/-- The Session headers of the responses so far, which are in memory for good; the two words of `s.session` (pointer 0 is nil, pointer `k + 1` is the
beginning of header `k`); the words that a running assignment still has to store; and for each call of `enqueue` the words it has loaded. -/
structure Racing where
  headers : List Bytes := []
  ptr : Nat := 0
  len : Nat := 0
  ptrLeft : Option Nat := none
  lenLeft : Option Nat := none
  reads : List (Option Nat × Option Nat) := []
  deriving DecidableEq, Repr

/-- What happens next: `process` has read a response with a Session header (empty: none) and begins the assignment, it stores one of the words,
another goroutine enters `enqueue`, or the call with the given number loads one of the words. -/
inductive WTurn
  | response (value : Bytes)
  | storePtr
  | storeLen
  | enqueue
  | loadPtr (i : Nat)
  | loadLen (i : Nat)
  deriving DecidableEq, Repr

/-- session.go:251-255 (`fields[0]` begins where the header begins) and session.go:74, one word at a time. A response is read when the assignment
for the last one is over. -/
def wturn (s : Racing) : WTurn → Racing
  | .response v =>
    if s.ptrLeft = none ∧ s.lenLeft = none ∧ v ≠ [] then
      match split 59 v with
      | f :: _ => { s with headers := s.headers ++ [v], ptrLeft := some (s.headers.length + 1), lenLeft := some f.length }
      | [] => s
    else s
  | .storePtr =>
    match s.ptrLeft with
    | some p => { s with ptr := p, ptrLeft := none }
    | none => s
  | .storeLen =>
    match s.lenLeft with
    | some l => { s with len := l, lenLeft := none }
    | none => s
  | .enqueue => { s with reads := s.reads ++ [(none, none)] }
  | .loadPtr i =>
    match s.reads[i]? with
    | some (none, l) => { s with reads := s.reads.set i (some s.ptr, l) }
    | _ => s
  | .loadLen i =>
    match s.reads[i]? with
    | some (p, none) => { s with reads := s.reads.set i (p, some s.len) }
    | _ => s

/-- A schedule. -/
def wturns (s : Racing) (ts : List WTurn) : Racing := ts.foldl wturn s

/-- The text that call `i` reads: the given number of bytes from the pointer on. `none`: it has not loaded both words, or the bytes are not those of
the header (what they are, or whether reading them is a fault, is up to the machine). -/
def Racing.read (s : Racing) (i : Nat) : Option Bytes :=
  match s.reads[i]? with
  | some (some _, some 0) => some []
  | some (some (k + 1), some l) =>
    match s.headers[k]? with
    | some v => if l ≤ v.length then some (v.take l) else none
    | none => none
  | _ => none

end Ouro
