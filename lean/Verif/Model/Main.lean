import Verif.Model.Session
import Verif.Model.Rtp
import Verif.Model.Nal
/-!
# Model of the command line client, cmd/ouro/main.go

The client is the session of Model/Session, the goroutine `process` (Model/Receive) that reads from the connection, and the loop
`handleStates`. They run interleaved: a schedule says what happens next. One turn of either loop is one step; what can happen when
`command` runs in both at the same time is in Model/Concurrent. The protocol is TCP, so `KeepAlive` (session.go:156-165) does nothing.
What the client does and sees is kept in a trace, latest first. What it logs is in Model/Log.
-/
namespace Ouro

/-- Why the client ends: it has finished (main.go:35), a packet was bad (main.go:62, 73, 88), a command could not be written
(`log.Fatal`, main.go:27, 32, 42, 108). -/
inductive Finish | finished | badPacket | fatal
  deriving DecidableEq, Repr

/-- What the client does and sees. -/
inductive Act
  | wire (o : Out)                      -- what the session sends, reads and notifies
  | timer                               -- main.go:23
  | stage (k : Nat)                     -- main.go:37
  | packet (ch : UInt8) (payload : Bytes)  -- main.go:56
  | unit (u : NALUnit)                  -- main.go:75-80
  | ended (why : Finish)

/-- The state. `running`: the goroutine `process` is. `states`: the stage that `notify` (session.go:213-218) is trying to send, if any;
the channel has no places, so the goroutine is blocked until it is received. `data`: the channel `Data` with 20 places, and a packet that
waits for a place. `state`, `sink`: main.go:17-18. The timer (main.go:19-20): `armed` if it is running, `fired` if its channel holds a
value; `Reset` leaves it there (before Go 1.23; since then it is removed, which is one of the schedules here: the timer is taken before).
-/
structure Client where
  rdr : Rdr
  sess : Sess
  running : Bool := true
  states : List Nat := []
  data : List (UInt8 × Bytes) := []
  state : Nat := stageInit
  sink : NALSink := newNALSink
  armed : Bool := false
  fired : Bool := false
  ended : Bool := false
  trace : List Act := []

/-- The end of the trace of the session that was added, latest first. -/
def added (s s' : Sess) : List Out := s'.out.take (s'.out.length - s.out.length)

/-- Values sent on the channel `State` (session.go:213-218), oldest first, given the events latest first. -/
def sentStages (o : List Out) : List Nat := o.reverse.filterMap fun x => match x with | .notified k => some k | _ => none

/-- Packets sent on the channel `Data`, oldest first. -/
def sentData (o : List Out) : List (UInt8 × Bytes) := o.reverse.filterMap fun x => match x with | .data ch p => some (ch, p) | _ => none

/-- The session after a step of it. -/
def Client.adopt (c : Client) (s : Sess) : Client :=
  { c with
    sess := s
    states := c.states ++ sentStages (added c.sess s)
    data := c.data ++ sentData (added c.sess s)
    trace := (added c.sess s).map .wire ++ c.trace }

/-- The client is over. -/
def Client.finish (c : Client) (why : Finish) : Client := { c with ended := true, trace := .ended why :: c.trace }

/-- A command of the loop, main.go:26-28, 31-33 and 41-43: `if err := ...; err != nil { log.Fatal(err) }`. -/
def Client.order (c : Client) (r : Go (Sess × Option SErr)) : Go Client :=
  match r with
  | .error p => .error p
  | .ok (s, none) => pure (c.adopt s)
  | .ok (s, some _) => pure ((c.adopt s).finish .fatal)

/-- main.go:103-108: `Open` with a connection that could be made; `rdr` is what it will deliver. `process` has not run
before OPTIONS is sent: `clientEarly` with no turns. -/
def clientOpen (w : World) (uri : Bytes) (user : Option (Bytes × Bytes)) (rdr : Rdr) : Go Client :=
  Client.order { rdr, sess := { newSession with opened := true, baseURI := uri, proto := .tcp, user := user } }
    (Sess.options w { newSession with opened := true, baseURI := uri, proto := .tcp, user := user })

/-- What happens next. -/
inductive CEv
  | read      -- a turn of `process`
  | expire    -- five seconds have passed
  | timer     -- `handleStates` receives from one of its channels
  | stage
  | packet
  deriving DecidableEq, Repr

/-- Whether `process` goes on after an error of `receive`, session.go:204-207. -/
def goesOn : Option SErr → Bool
  | none => true
  | some (.write timeout) => timeout
  | some (.listen temporary) => temporary
  | some _ => false

/-- session.go:204-207: a turn of `process`. It is blocked while a stage or a packet waits to be received. -/
def clientRead (w : World) (c : Client) : Go Client :=
  if c.running = true ∧ c.states = [] ∧ c.data.length ≤ 20 then
    match recv c.rdr with
    | (.error (.io .timeout), r) => pure { c with rdr := r }
    | (.error _, r) => pure { c with rdr := r, running := false }
    | (.ok item, r) =>
      match handleItem w c.sess item with
      | .error p => .error p
      | .ok (s, e) => pure ({ c with rdr := r, running := goesOn e }.adopt s)
  else pure c

/-- main.go:103-108, session.go:46-54: `Open` starts `process` before it sends OPTIONS, so that `n` turns of it can come first. That a
response can come while OPTIONS is being written is left out. -/
def clientEarly (w : World) (uri : Bytes) (user : Option (Bytes × Bytes)) (rdr : Rdr) (n : Nat) : Go Client :=
  match turns n { rdr, sess := { newSession with opened := true, baseURI := uri, proto := .tcp, user := user } } with
  | .error p => .error p
  | .ok c => c.order (Sess.options w c.sess)
where
  turns : Nat → Client → Go Client
    | 0, c => pure c
    | n + 1, c =>
      match clientRead w c with
      | .error p => .error p
      | .ok c => turns n c

/-- main.go:23-36 -/
def clientTimer (w : World) (c : Client) : Go Client :=
  if c.fired = true then
    let c := { c with fired := false, trace := .timer :: c.trace }
    if c.state = stagePlay then c.order (c.sess.pause w)
    else if c.state = stagePause then c.order (c.sess.teardown w)
    else if c.state = stageDone then pure (c.finish .finished)
    else pure c
  else pure c

/-- main.go:37-55 -/
def clientStage (w : World) (c : Client) : Go Client :=
  match c.states with
  | [] => pure c
  | k :: ks =>
    let c := { c with states := ks, state := k, trace := .stage k :: c.trace }
    if k = stageReady then c.order (c.sess.play w)
    else if k = stagePlay then pure { c with armed := true }
    else if k = stagePause then pure { c with armed := true }
    else if k = stageDone then pure { c with armed := true }
    else pure c

/-- main.go:56-92. `p.PL` is never nil, as a slice of the payload. -/
def clientPacket (c : Client) : Go Client :=
  match c.data with
  | [] => pure c
  | (ch, payload) :: rest =>
    let c := { c with data := rest, trace := .packet ch payload :: c.trace }
    if ch % 2 = 0 then
      match rtpUnpack payload with
      | .error p => .error p
      | .ok (.error _) => pure (c.finish .badPacket)
      | .ok (.ok p) =>
        match push c.sink p.pl p.ts with
        | .error p => .error p
        | .ok (some _, sink) => pure ({ c with sink := sink }.finish .badPacket)
        | .ok (none, sink) => pure { c with sink := sink, trace := (sink.units.map .unit).reverse ++ c.trace }
    else
      match rtcpUnpack payload with
      | .error p => .error p
      | .ok (.error _) => pure (c.finish .badPacket)
      | .ok (.ok _) => pure c

/-- One step; nothing happens if it cannot. -/
def cstep (w : World) (c : Client) (e : CEv) : Go Client :=
  if c.ended then pure c
  else match e with
    | .read => clientRead w c
    | .expire => pure (if c.armed then { c with armed := false, fired := true } else c)
    | .timer => clientTimer w c
    | .stage => clientStage w c
    | .packet => clientPacket c

/-- A schedule. -/
def csteps (w : World) (c : Client) : List CEv → Go Client
  | [] => pure c
  | e :: es =>
    match cstep w c e with
    | .error p => .error p
    | .ok c => csteps w c es

end Ouro
