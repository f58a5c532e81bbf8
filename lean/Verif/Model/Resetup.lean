import Verif.Model.Session
/-!
# Model of `Setup` of net/rtsp/session.go in a goroutine of the user, while `process` may replace the streams

`s.feeds` is shared without a lock: `process` assigns it when a description arrives (session.go:267). `Setup` reads it again for every use.
Each step here is one use of `s.feeds`. Simplified: memory is sequentially consistent and a slice is read and written at once; writing
requests succeeds; other goroutines' requests are left out.
-/
namespace Ouro

/-- Where `Setup` is with a stream, session.go:125-133. -/
inductive RPc
  | control                 -- before line 125
  | transport (uri : Bytes) -- lines 125-128 done: the URI is known
  | note                    -- line 129 done: the request has been written
  deriving DecidableEq, Repr

/-- The streams now, how many there were when `Setup` began (line 123: the length is taken once), the stream it is at, where it is, the
requests written (URI and Transport header), and whether it has panicked. -/
structure Resetup where
  base : Bytes
  feeds : List Feed
  n : Nat
  i : Nat := 0
  pc : RPc := .control
  sent : List (Bytes × Bytes) := []
  panicked : Bool := false

/-- What happens next: `process` takes a description with these streams, or `Setup` goes on. -/
inductive RTurn
  | description (feeds : List Feed)
  | go

/-- session.go:123-134 and 267, one use of `s.feeds` at a time. -/
def rturn (s : Resetup) : RTurn → Resetup
  | .description fs => { s with feeds := fs }
  | .go =>
    if s.panicked = true ∨ s.n ≤ s.i then s
    else
      match s.feeds[s.i]? with
      | none => { s with panicked := true }
      | some f =>
        match s.pc with
        | .control => { s with pc := .transport (setupURI s.base f.media.control) }
        | .transport uri => { s with pc := .note, sent := s.sent ++ [(uri, f.transportHeader)] }
        | .note => { s with pc := .control, i := s.i + 1 }

/-- A schedule. -/
def rturns (s : Resetup) (ts : List RTurn) : Resetup := ts.foldl rturn s

/-- `Setup` begins. -/
def resetup (base : Bytes) (feeds : List Feed) : Resetup := { base, feeds, n := feeds.length }

end Ouro
