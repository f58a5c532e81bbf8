import Verif.Model.ConcurrentSetup
import Verif.Spec.Concurrent
/-! # Setting streams up while other goroutines issue commands -/
namespace Ouro.Spec

instance : DecidablePred Mid := fun a => by cases a <;> unfold Mid <;> infer_instance

/-- A session about to set `n` streams up; the requests so far had the numbers up to `c`. -/
def settingUp (c n : Nat) : Setting := { sh := { cseq := c }, feeds := n }

/-- `Setup` has begun the request of a stream and has not yet noted its number. -/
def MidSetup (s : Setting) : Prop := s.noted.length < s.mine.length

/-- A schedule in which no other goroutine is between reading the counter and taking its number from it while `Setup` is at work on a
stream. -/
def Undisturbed (s : Setting) (ts : List STurn) : Prop :=
  ∀ p, p <+: ts → MidSetup (sturns s p) →
    ∀ (i : Nat) (a : Pc), (sturns s p).sh.calls[i]? = some a → i ∉ (sturns s p).mine → ¬ Mid a

/-- A schedule in which no two calls of `command` are ever there at the same time. -/
def CallsApart (s : Setting) (ts : List STurn) : Prop :=
  ∀ p, p <+: ts → ((sturns s p).sh.calls.filter fun a => decide (Mid a)).length ≤ 1

/-- `Setup` has returned. -/
def SetupOver (s : Setting) : Prop := s.noted.length = s.feeds

/-- The request of call `i` was written and an answer to it was taken. -/
def AnswerTaken (s : Setting) (i : Nat) : Prop := ∃ c, (c, i) ∈ s.sh.wire ∧ (c, i) ∉ s.sh.queue

end Ouro.Spec
