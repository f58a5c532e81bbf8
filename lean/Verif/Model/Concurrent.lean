import Verif.Go.Basic
/-!
# Model of `command` of net/rtsp/session.go when several goroutines run it

The user's goroutines and the goroutine `process` share the counter `s.cseq` and the map `s.queue`. Only `enqueue` and `dequeue`
hold the lock. Here each step is one access to memory that other goroutines see; `s.cseq++` is a read and a write. Memory is sequentially
consistent, which is more than Go promises for accesses without a lock.
-/
namespace Ouro

/-- Where a goroutine is in `command`, session.go:88-109. -/
inductive Pc
  | start                 -- before line 99
  | loaded (v : Nat)      -- line 99: `s.cseq` has been read
  | counted               -- line 99 done
  | queued (cseq : Nat)   -- line 100 done: the request has its number
  | done (cseq : Nat)     -- line 105 done: the request has been written
  deriving DecidableEq, Repr

/-- The counter, the queue (CSeq and which call's request it is), the numbers written to the connection (latest first) with the call,
and the answers taken: the CSeq of the response and the call whose request it was matched to. Calls are numbered by their place in `calls`. -/
structure Shared where
  cseq : Nat := 0
  queue : List (Nat × Nat) := []
  calls : List Pc := []
  wire : List (Nat × Nat) := []
  deriving DecidableEq, Repr

/-- What happens next: some goroutine enters `command`, the call with the given number goes on, or `dequeue` (session.go:78-86) is called with
a number. -/
inductive Turn
  | call
  | go (i : Nat)
  | dequeue (seq : Nat)
  deriving DecidableEq, Repr

/-- session.go:99-105, one access at a time. `go` of a call that is not running does nothing. -/
def turn (s : Shared) : Turn → Shared
  | .call => { s with calls := s.calls ++ [.start] }
  | .dequeue seq => { s with queue := s.queue.filter fun e => e.1 ≠ seq }
  | .go i =>
    match s.calls[i]? with
    | some .start => { s with calls := s.calls.set i (.loaded s.cseq) }
    | some (.loaded v) => { s with cseq := v + 1, calls := s.calls.set i .counted }
    | some .counted =>
      { s with calls := s.calls.set i (.queued s.cseq), queue := (s.queue.filter fun e => e.1 ≠ s.cseq) ++ [(s.cseq, i)] }
    | some (.queued c) => { s with calls := s.calls.set i (.done c), wire := (c, i) :: s.wire }
    | _ => s

/-- A schedule. -/
def turns (s : Shared) (ts : List Turn) : Shared := ts.foldl turn s

end Ouro
