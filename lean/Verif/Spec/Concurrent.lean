import Verif.Model.Concurrent
/-! # Concurrent commands: what the calls have to keep apart -/
namespace Ouro.Spec

/-- A call is between reading the counter and taking its number from it. -/
def Mid : Pc → Prop
  | .loaded _ => True
  | .counted => True
  | _ => False

/-- A schedule in which two calls are never there at the same time. -/
def Exclusive (ts : List Turn) : Prop :=
  ∀ p, p <+: ts → ∀ (i j : Nat) (a b : Pc), (turns {} p).calls[i]? = some a → (turns {} p).calls[j]? = some b → Mid a → Mid b → i = j

/-- Two calls are at the same spot: both have read the counter and not written it, or both have written it and not taken their number. -/
def SameSpot : Pc → Pc → Prop
  | .loaded _, .loaded _ => True
  | .counted, .counted => True
  | _, _ => False

/-- A schedule in which two calls are never at the same spot. -/
def Spread (ts : List Turn) : Prop :=
  ∀ p, p <+: ts → ∀ (i j : Nat) (a b : Pc), (turns {} p).calls[i]? = some a → (turns {} p).calls[j]? = some b → SameSpot a b → i = j

/-- The request of call `i` was taken from the queue for a response with the number `c`. -/
def Taken (ts : List Turn) (c i : Nat) : Prop := ∃ p q, ts = p ++ .dequeue c :: q ∧ (c, i) ∈ (turns {} p).queue

/-- All requests on the wire have different numbers, each request stays in the queue until a response with its number takes it, and such a
response can only find that request. -/
def Matched (ts : List Turn) : Prop :=
  ((turns {} ts).wire.map Prod.fst).Nodup ∧
  ∀ c i, (c, i) ∈ (turns {} ts).wire → ((c, i) ∈ (turns {} ts).queue ∨ Taken ts c i) ∧ ∀ j, (c, j) ∈ (turns {} ts).queue → j = i

/-- All calls have returned. -/
def AllDone (ts : List Turn) : Prop := ∀ a ∈ (turns {} ts).calls, ∃ c, a = .done c

/-- A schedule in which each call runs to its end before the next begins; responses can come at any time. First argument: calls that
have ended; second: how many steps the running call has left. -/
inductive OneByOne : Nat → Nat → List Turn → Prop
  | nil (n) : OneByOne n 0 []
  | dequeue {n k ts} (seq) : OneByOne n k ts → OneByOne n k (.dequeue seq :: ts)
  | call {n ts} : OneByOne n 4 ts → OneByOne n 0 (.call :: ts)
  | go {n k ts} : OneByOne n (k + 1) ts → OneByOne n (k + 2) (.go n :: ts)
  | last {n ts} : OneByOne (n + 1) 0 ts → OneByOne n 1 (.go n :: ts)

end Ouro.Spec
