import Verif.Model.Receive
import Verif.Model.Digest
import Verif.Model.Transport
/-!
# Model of net/rtsp/session.go

Every method is one atomic step here; what can happen when `command` runs in two goroutines at the same time is in
Model/Concurrent. What the session writes to and reads from the connection and sends on its channels is kept in a
trace, latest first. Sends on the channels `State` and `Data` are taken to succeed: they block until the user receives.
`s.cseq` is unbounded here, 64 bits in Go. Logging is left out.
-/
namespace Ouro

/-- Stages, definitions.go:47-58. -/
def stageInit : Nat := 0
/-- definitions.go:49 -/
def stageReady : Nat := 1
/-- definitions.go:51 -/
def stagePlay : Nat := 2
/-- definitions.go:53 -/
def stagePause : Nat := 3
/-- definitions.go:55 -/
def stageDone : Nat := 4

/-- Verbs, definitions.go:9-31 (`verbOptions` and `verbSetup` are in Model/Message). -/
def verbDescribe : Bytes := b!"DESCRIBE"
/-- definitions.go:19 -/
def verbPause : Bytes := b!"PAUSE"
/-- definitions.go:21 -/
def verbPlay : Bytes := b!"PLAY"
/-- definitions.go:31 -/
def verbTeardown : Bytes := b!"TEARDOWN"

/-- The outcome of a `Write` or a `ListenUDP`. -/
inductive IORes | ok | timeout | failed
  deriving DecidableEq, Repr

/-- The errors of the session. -/
inductive SErr
  | noConnection
  | badResponse
  | noCredentials
  | auth (e : AuthErr)
  | feed (e : FeedErr)
  | listen (temporary : Bool)
  | write (timeout : Bool)
  deriving DecidableEq, Repr

/-- What can be observed of a session: requests written (`retry`: by `handleRtsp` after a 401 and not by `command`), responses
read, notifications on `State`, `Start` with the UDP listeners so far, packets on `Data`. -/
inductive Out
  | sent (retry : Bool) (req : Request) (res : IORes)
  | got (rsp : Response)
  | notified (stage : Nat)
  | started (sinks : List (UInt8 × Int))
  | data (ch : UInt8) (payload : Bytes)

/-- Everything outside: the hash function, the parameter of `parsePPS` (Model/ParamSets), random bytes, whether writing and
listening work (`timeout`: with an error that is a timeout or temporary, connection.go:48-53). They may depend on all that happened before. -/
structure World where
  md5 : Bytes → Bytes
  inf : Nat
  rnd : List Out → Bytes
  write : List Out → Bytes → IORes
  listen : List Out → List (UInt8 × Int) → Int → IORes

/-- session.go:18-32 `Session`, with the fields of `Conn` it uses. `opened`: `Conn` is not nil. The queue, a map, is a list of entries
with different keys. `auth` is the function with the digest it shares. `verbs` is only written to. The time of the last keep-alive
message is left out: whether one is due is up to the environment. -/
structure Sess where
  opened : Bool := false
  proto : Proto := .tcp
  baseURI : Bytes := []
  user : Option (Bytes × Bytes) := none
  stage : Nat := stageInit
  auth : Option (AuthFunc × Digest) := none
  queue : List (Int × Request) := []
  session : Bytes := []
  feeds : List Feed := []
  feedidx : Nat := 0
  verbs : List Bytes := []
  cseq : Nat := 0
  sinks : List (UInt8 × Int) := []
  out : List Out := []

/-- session.go:36-43 `NewSession` -/
def newSession : Sess := {}

/-- Look a request up in the queue, session.go:81. -/
def Sess.find (s : Sess) (seq : Int) : Option Request := (s.queue.find? fun e => e.1 = seq).map (·.2)

/-- session.go:70-76 `enqueue`: the request with its new fields, and the session. -/
def enqueue (s : Sess) (req : Request) : Request × Sess :=
  let req := { req with cseq := s.cseq, session := s.session }
  (req, { s with queue := s.queue.filter (fun e => e.1 ≠ req.cseq) ++ [(req.cseq, req)] })

/-- session.go:78-86 `dequeue`, if the request is there. -/
def Sess.remove (s : Sess) (seq : Int) : Sess := { s with queue := s.queue.filter fun e => e.1 ≠ seq }

/-- connection.go:106-127 `Write` of a request packed with `Pack`. With the HTTP protocol the connection `post` is used, which `Dial` never
sets (connection.go:57-104): see Model/Http. The header maps of the requests made here have at most one entry, so their
iteration order does not matter. -/
def writeReq (w : World) (s : Sess) (retry : Bool) (req : Request) : Go (Sess × Option SErr) :=
  if s.proto = .http then .error .nilDeref
  else
    let res := w.write s.out (req.pack req.header)
    let s := { s with out := .sent retry req res :: s.out }
    match res with
    | .ok => pure (s, none)
    | .timeout => pure (s, some (.write true))
    | .failed => pure (s, some (.write false))

/-- `s.auth(verb, nil)` if there is a function, session.go:96-98. -/
def callAuth (w : World) (s : Sess) (verb : Bytes) : Go (Bytes × Sess) :=
  match s.auth with
  | none => pure ([], s)
  | some (f, d) =>
    match authCall w.md5 f d verb [] with
    | .error p => .error p
    | .ok (a, d) => pure (a, { s with auth := some (f, d) })

/-- session.go:88-109 `command` -/
def command (w : World) (s : Sess) (verb uri : Bytes) (headers : Header) : Go (Sess × Option SErr) :=
  if s.opened = false then pure (s, some .noConnection)
  else
    match callAuth w s verb with
    | .error p => .error p
    | .ok (a, s) =>
      let req : Request := { verb, uri, auth := a, header := headers.foldl (fun h e => h.set e.1 e.2) [] }
      let (req, s) := enqueue { s with cseq := s.cseq + 1 } req
      writeReq w s false req

/-- `s.BaseURI` and `s.Proto` are fields of the embedded `*Conn` (session.go:19), which is nil before `Open`: reading them is a panic
then. The methods below read them before they call `command`, so its own check for a nil `Conn` comes too late. -/
def Sess.deref (s : Sess) (k : Go (Sess × Option SErr)) : Go (Sess × Option SErr) := if s.opened = false then .error .nilDeref else k

/-- session.go:112-114 `Options` -/
def Sess.options (w : World) (s : Sess) : Go (Sess × Option SErr) := s.deref (command w s verbOptions s.baseURI [])

/-- session.go:117-119 `Describe` -/
def Sess.describe (w : World) (s : Sess) : Go (Sess × Option SErr) :=
  s.deref (command w s verbDescribe s.baseURI [(b!"Accept", b!"application/sdp")])

/-- session.go:125-128: the URI for a feed. -/
def setupURI (base control : Bytes) : Bytes :=
  if (b!"rtsp://").isPrefixOf control then control else base ++ b!"/" ++ control

/-- session.go:123-134: the loop over the feeds; `done` are those before. A session without a `Conn` has no feeds. -/
def setupLoop (w : World) (done : List Feed) : List Feed → Sess → Go (Sess × Option SErr)
  | [], s => pure (s, none)
  | f :: fs, s =>
    match command w s verbSetup (setupURI s.baseURI f.media.control) [(b!"Transport", f.transportHeader)] with
    | .error p => .error p
    | .ok (s, some e) => pure (s, some e)
    | .ok (s, none) =>
      let f := { f with cseq := s.cseq }
      setupLoop w (done ++ [f]) fs { s with feeds := done ++ f :: fs }

/-- session.go:122-136 `Setup` -/
def Sess.setup (w : World) (s : Sess) : Go (Sess × Option SErr) := setupLoop w [] s.feeds s

/-- session.go:139-141 `Play` -/
def Sess.play (w : World) (s : Sess) : Go (Sess × Option SErr) := s.deref (command w s verbPlay s.baseURI [])

/-- session.go:144-146 `Pause` -/
def Sess.pause (w : World) (s : Sess) : Go (Sess × Option SErr) := s.deref (command w s verbPause s.baseURI [])

/-- session.go:149-152 `Teardown` -/
def Sess.teardown (w : World) (s : Sess) : Go (Sess × Option SErr) := s.deref (command w s verbTeardown s.baseURI [])

/-- session.go:156-165 `KeepAlive`; `due`: two seconds have passed since the last one. -/
def Sess.keepAlive (w : World) (s : Sess) (due : Bool) : Go (Sess × Option SErr) :=
  s.deref <|
    if s.proto ≠ .http ∧ s.proto ≠ .tcp ∧ s.stage > stageInit ∧ s.stage < stageDone ∧ due = true then
      command w s verbOptions s.baseURI [(b!"Session", s.session)]
    else pure (s, none)

/-- session.go:213-218 `notify` -/
def notify (s : Sess) (stage : Nat) : Sess := { s with stage := stage, out := .notified stage :: s.out }

/-- connection.go:178-197 `AddSink` -/
def addSink (w : World) (s : Sess) (ch : UInt8) (port : Int) : Sess × Option SErr :=
  match w.listen s.out s.sinks port with
  | .ok => ({ s with sinks := s.sinks ++ [(ch, port)] }, none)
  | .timeout => (s, some (.listen true))
  | .failed => (s, some (.listen false))

/-- session.go:293-309: the loop over the feeds. -/
def setupAnswer (w : World) (rsp : Response) (done : List Feed) : List Feed → Sess → Go (Sess × Option SErr)
  | [], s => pure (s, none)
  | f :: fs, s =>
    if f.cseq = rsp.cseq then
      match f.transportSetup w.inf (rsp.header.get b!"Transport") with
      | .error p => .error p
      | .ok (f', e) =>
        let s := { s with feedidx := s.feedidx + 1, feeds := done ++ f' :: fs }
        match e with
        | some e => pure (s, some (.feed e))
        | none =>
          if f'.transp.isTCP then setupAnswer w rsp (done ++ [f']) fs s
          else
            let ch := UInt8.ofNat s.feedidx * 2
            match addSink w s ch f'.transp.port.one with
            | (s, some e) => pure (s, some e)
            | (s, none) =>
              match addSink w s (ch + 1) f'.transp.port.two with
              | (s, some e) => pure (s, some e)
              | (s, none) => setupAnswer w rsp (done ++ [f']) fs s
    else setupAnswer w rsp (done ++ [f]) fs s

/-- session.go:314-318; connection.go:200-223 `Start` (what its goroutines do is in Model/Udp). -/
def checkReady (s : Sess) : Sess :=
  if s.feedidx ≥ s.feeds.length then
    let s := notify s stageReady
    { s with out := .started s.sinks :: s.out }
  else s

/-- session.go:291-319 `handleSetup` -/
def handleSetup (w : World) (s : Sess) (rsp : Response) : Go (Sess × Option SErr) :=
  if rsp.statusCode = 200 then
    match setupAnswer w rsp [] s.feeds s with
    | .error p => .error p
    | .ok (s, some e) => pure (s, some e)
    | .ok (s, none) => pure (checkReady s, none)
  else if rsp.statusCode ≠ 401 then pure (checkReady { s with feedidx := s.feedidx + 1 }, none)
  else pure (checkReady s, none)

/-- session.go:56-68 `authorize` -/
def authorize (w : World) (s : Sess) (challenge : Bytes) : Go (Sess × Option SErr) :=
  match newDigest s.baseURI challenge with
  | .error e => pure (s, some (.auth e))
  | .ok d =>
    match s.user with
    | none => pure (s, some .noCredentials)
    | some (username, password) =>
      match authenticate w.md5 (w.rnd s.out) d username password with
      | .error p => .error p
      | .ok (f, d) => pure ({ s with auth := some (f, d) }, none)

/-- session.go:235-248: the answer to a 401. -/
def retry (w : World) (s : Sess) (req : Request) (challenge : Bytes) : Go (Sess × Option SErr) :=
  match authorize w s challenge with
  | .error p => .error p
  | .ok (s, some e) => pure (s, some e)
  | .ok (s, none) =>
    match callAuth w s req.verb with
    | .error p => .error p
    | .ok (a, s) =>
      let (req, s) := enqueue s { req with auth := a }
      writeReq w s true req

/-- session.go:251-255 -/
def learnSession (s : Sess) (value : Bytes) : Sess :=
  if value ≠ [] then
    match split 59 value with
    | f :: _ => { s with session := f }
    | [] => s
  else s

/-- session.go:257-288: the switch on the verb. -/
def answer (w : World) (s : Sess) (verb : Bytes) (rsp : Response) : Go (Sess × Option SErr) :=
  if verb = verbOptions then
    if s.stage = stageInit then
      Sess.describe w { s with verbs := s.verbs ++ split2 44 32 (rsp.header.get b!"Public") }
    else pure (s, none)
  else if verb = verbDescribe then
    match rsp.body with
    | some body =>
      match parseFeeds s.proto body with
      | .error p => .error p
      | .ok feeds => Sess.setup w { s with feeds := feeds }
    | none => pure (s, none)
  else if verb = verbPause then pure (if rsp.statusCode = 200 then notify s stagePause else s, none)
  else if verb = verbPlay then pure (if rsp.statusCode = 200 then notify s stagePlay else s, none)
  else if verb = verbTeardown then pure (if rsp.statusCode = 200 then notify s stageDone else s, none)
  else if verb = verbSetup then handleSetup w s rsp
  else pure (s, none)

/-- session.go:228-289: `handleRtsp` after `Unpack`. -/
def handleRtsp (w : World) (s : Sess) (rsp : Response) : Go (Sess × Option SErr) :=
  match s.find rsp.cseq with
  | none => pure (s, some .badResponse)
  | some req =>
    if rsp.statusCode = 401 then retry w (s.remove rsp.cseq) req (rsp.header.get b!"WWW-Authenticate")
    else answer w (learnSession (s.remove rsp.cseq) (rsp.header.get b!"Session")) req.verb rsp

/-- session.go:167-193 `receive` once the frame or response has been read (Model/Receive). -/
def handleItem (w : World) (s : Sess) : Item → Go (Sess × Option SErr)
  | .frame ch payload => pure ({ s with out := .data ch payload :: s.out }, none)
  | .response rsp => handleRtsp w { s with out := .got rsp :: s.out } rsp

/-- What can happen to a session: the user's calls, `KeepAlive` of the goroutine `process`, and what the server sends. `dial` is a
`Dial` (connection.go:57-104) in `Open` that succeeded, with the URI without credentials, the protocol and the credentials; for one that
failed nothing happens. `Open` then starts `process` and sends OPTIONS: `open_` is both at once, `dial`, then what `process` does first,
then `options` is the general case. -/
inductive Op
  | dial (uri : Bytes) (proto : Proto) (user : Option (Bytes × Bytes))
  | open_ (uri : Bytes) (proto : Proto) (user : Option (Bytes × Bytes))
  | options
  | describe
  | setup
  | play
  | pause
  | teardown
  | keepAlive (due : Bool)
  | item (i : Item)

/-- One of them. `dial` is session.go:46-51, `open_` is session.go:46-54 `Open`: the new `Conn` has no listeners. -/
def step (w : World) (s : Sess) : Op → Go (Sess × Option SErr)
  | .dial uri proto user => pure ({ s with opened := true, baseURI := uri, proto := proto, user := user, sinks := [] }, none)
  | .open_ uri proto user => Sess.options w { s with opened := true, baseURI := uri, proto := proto, user := user, sinks := [] }
  | .options => s.options w
  | .describe => s.describe w
  | .setup => s.setup w
  | .play => s.play w
  | .pause => s.pause w
  | .teardown => s.teardown w
  | .keepAlive due => s.keepAlive w due
  | .item i => handleItem w s i

/-- A history: the operations one after the other. -/
def run (w : World) (s : Sess) : List Op → Go Sess
  | [] => pure s
  | op :: ops =>
    match step w s op with
    | .error p => .error p
    | .ok (s, _) => run w s ops

end Ouro
