import Verif.Model.Main
/-!
# The command line client with its clock

Model/Main says when the timer can fire by an event of its own, `expire`. Here every step has the time at which it happens, in milliseconds
since some moment, and the timer fires five seconds after it was set, or later.
-/
namespace Ouro

/-- The client, when `tmr.Reset` was called last, and what it did and saw with the times, latest first. -/
structure Timed where
  client : Client
  set : Nat := 0
  log : List (Nat × Act) := []

/-- main.go:46, 49, 52: `time.Second * 5`. -/
def fiveSeconds : Nat := 5000

/-- main.go:44-52: whether a step resets the timer: stage Play, Pause or Done is received. -/
def resets (c : Client) (e : CEv) : Bool :=
  !c.ended && decide (e = .stage) &&
    match c.states with
    | k :: _ => decide (k = stagePlay ∨ k = stagePause ∨ k = stageDone)
    | [] => false

/-- One step at time `t`: as `cstep` (main.go:21-93, session.go:195-211), but that the timer does not fire before its time. -/
def tstep (w : World) (x : Timed) (t : Nat) (e : CEv) : Go Timed :=
  if e = .expire ∧ t < x.set + fiveSeconds then pure x
  else
    match cstep w x.client e with
    | .error p => .error p
    | .ok c =>
      pure { client := c
             set := if resets x.client e then t else x.set
             log := (c.trace.take (c.trace.length - x.client.trace.length)).map (fun a => (t, a)) ++ x.log }

/-- A schedule with times. -/
def tsteps (w : World) (x : Timed) : List (Nat × CEv) → Go Timed
  | [] => pure x
  | (t, e) :: es =>
    match tstep w x t e with
    | .error p => .error p
    | .ok x => tsteps w x es

/-- main.go:103-110: `Open` at time `t`, after `n` turns of `process`. -/
def topen (w : World) (t : Nat) (uri : Bytes) (user : Option (Bytes × Bytes)) (rdr : Rdr) (n : Nat) : Go Timed :=
  match clientEarly w uri user rdr n with
  | .error p => .error p
  | .ok c => pure { client := c, log := c.trace.map fun a => (t, a) }

end Ouro
