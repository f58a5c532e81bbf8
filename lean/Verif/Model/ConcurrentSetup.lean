import Verif.Model.Concurrent
/-!
# Model of `Setup` and `handleSetup` of net/rtsp/session.go when other goroutines issue commands

`Setup` runs in the goroutine `process`. Its commands go through the same counter as those of the user's goroutines (Model/Concurrent), and
after each it reads the counter again, without the lock, to note the number of the request.
-/
namespace Ouro

/-- The shared memory, the number of streams, the calls of `command` that `Setup` made, the numbers it noted (`feeds[i].cseq`), both in the
order of the streams, `s.feedidx`, and whether `StageReady` was reported. -/
structure Setting where
  sh : Shared := {}
  feeds : Nat
  mine : List Nat := []
  noted : List Nat := []
  idx : Nat := 0
  ready : Bool := false
  deriving DecidableEq, Repr

/-- What happens next: another goroutine enters `command`, the call with the given number goes on in another goroutine, `Setup` goes on, or
`process` reads a response 200 with the given CSeq. -/
inductive STurn
  | call
  | go (i : Nat)
  | setup
  | answer (c : Nat)
  deriving DecidableEq, Repr

/-- session.go:122-136 `Setup`, one access at a time, and session.go:228, 284-285, 291-318 `handleSetup`: a response 200 to a request of `Setup`. The
goroutine `process` reads no response before `Setup` has returned. Simplified: a response 200 sets its stream up (line 296 finds no fault) and
the transport is TCP (lines 299-307 are left out); writing succeeds; a response to another goroutine's request only leaves the queue;
a response that no request in the queue has the number of is not read. -/
def sturn (s : Setting) : STurn → Setting
  | .call => { s with sh := turn s.sh .call }
  | .go i => if i ∈ s.mine then s else { s with sh := turn s.sh (.go i) }
  | .setup =>
    if s.noted.length < s.feeds then
      match s.mine[s.noted.length]? with
      | none => { s with sh := turn s.sh .call, mine := s.mine ++ [s.sh.calls.length] }
      | some i =>
        match s.sh.calls[i]? with
        | some (.done _) => { s with noted := s.noted ++ [s.sh.cseq] }
        | _ => { s with sh := turn s.sh (.go i) }
    else s
  | .answer c =>
    if s.noted.length < s.feeds then s
    else
      match s.sh.queue.find? fun e => e.1 = c with
      | none => s
      | some e =>
        if e.2 ∈ s.mine then
          { s with
            sh := turn s.sh (.dequeue c)
            idx := s.idx + s.noted.count c
            ready := s.ready || decide (s.feeds ≤ s.idx + s.noted.count c) }
        else { s with sh := turn s.sh (.dequeue c) }

/-- A schedule. -/
def sturns (s : Setting) (ts : List STurn) : Setting := ts.foldl sturn s

end Ouro
