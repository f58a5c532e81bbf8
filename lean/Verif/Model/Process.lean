import Verif.Model.Main
/-!
# Model of the goroutine that reads from the connection, with its clock

session.go:45-54, 154-211. Times are in milliseconds since some moment; `time.Now` of Go includes a clock that never goes back. As in Model/Session a call
is one step, also the rest of `receive` once a message is there; `notify` waits for the user, which takes some time.
-/
namespace Ouro

/-- The session, what the connection will deliver, `s.last` (none: `IsZero`), whether the goroutine `process` is running, and all that could be
observed with the time when it happened, latest first. -/
structure Clocked where
  sess : Sess
  rdr : Rdr
  last : Option Nat := none
  running : Bool := true
  log : List (Nat × Out) := []

/-- The session after something it did at time `t`. -/
def Clocked.adopt (p : Clocked) (t : Nat) (s : Sess) : Clocked := { p with sess := s, log := (added p.sess s).map (fun o => (t, o)) ++ p.log }

/-- session.go:13-15 -/
def keepAliveTimeout : Nat := 2000

/-- session.go:158: the first of the two clock readings decides. -/
def Clocked.due (p : Clocked) (t : Nat) : Bool :=
  match p.last with
  | none => true
  | some l => decide (keepAliveTimeout ≤ t - l)

/-- session.go:157 -/
def Sess.inUse (s : Sess) : Bool := decide (s.proto ≠ .http ∧ s.proto ≠ .tcp ∧ s.stage > stageInit ∧ s.stage < stageDone)

/-- session.go:156-165 `KeepAlive`; `now` and `now'` are the two clock readings. -/
def procKeepAlive (w : World) (p : Clocked) (now now' : Nat) : Go (Clocked × Option SErr) :=
  if p.sess.inUse && p.due now then
    match p.sess.keepAlive w true with
    | .error x => .error x
    | .ok (s, e) => pure ({ p with last := some now' }.adopt now' s, e)
  else pure (p, none)

/-- session.go:204-207 `receive` in `process`; `t`: when it returns. -/
def procReceive (w : World) (p : Clocked) (t : Nat) : Go Clocked :=
  match recv p.rdr with
  | (.error (.io .timeout), r) => pure { p with rdr := r }
  | (.error _, r) => pure { p with rdr := r, running := false }
  | (.ok item, r) =>
    match handleItem w p.sess item with
    | .error x => .error x
    | .ok (s, e) => pure ({ p with rdr := r, running := goesOn e }.adopt t s)

/-- session.go:195-211: a turn of the loop of `process`. `s.done` is never made, so that receiving from it blocks and the default is taken. -/
def procTurn (w : World) (p : Clocked) (now now' t : Nat) : Go Clocked :=
  if p.running then
    match procKeepAlive w p now now' with
    | .error x => .error x
    | .ok (p, e) => if e ≠ none ∧ p.sess.stage = stageDone then pure { p with running := false } else procReceive w p t
  else pure p

/-- The calls of the user. -/
inductive Call
  | options
  | describe
  | setup
  | play
  | pause
  | teardown
  deriving DecidableEq, Repr

/-- The calls as operations of the session, session.go:112-153. -/
def Call.op : Call → Op
  | .options => .options
  | .describe => .describe
  | .setup => .setup
  | .play => .play
  | .pause => .pause
  | .teardown => .teardown

/-- What happens next, and when. -/
inductive PEv
  | turn (now now' t : Nat)
  | call (c : Call) (t : Nat)
  deriving DecidableEq, Repr

/-- A turn of `process` (session.go:195-210) or a call. -/
def pstep (w : World) (p : Clocked) : PEv → Go Clocked
  | .turn now now' t => procTurn w p now now' t
  | .call c t =>
    match step w p.sess c.op with
    | .error x => .error x
    | .ok (s, _) => pure (p.adopt t s)

/-- A history. -/
def psteps (w : World) (p : Clocked) : List PEv → Go Clocked
  | [] => pure p
  | e :: es =>
    match pstep w p e with
    | .error x => .error x
    | .ok p => psteps w p es

/-- session.go:46-54 `Open` of a new session, at time `t`, with a connection that could be made. -/
def procOpen (w : World) (t : Nat) (uri : Bytes) (proto : Proto) (user : Option (Bytes × Bytes)) (rdr : Rdr) : Go Clocked :=
  match step w newSession (.open_ uri proto user) with
  | .error x => .error x
  | .ok (s, _) => pure (Clocked.adopt { sess := newSession, rdr } t s)

end Ouro
