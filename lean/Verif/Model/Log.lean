import Verif.Model.Main
import Verif.Model.Dial
/-!
# Model of what the command line client prints

The session and the client write to the standard logger, which the client sends to standard output (main.go:104). An entry of the log is
what one call of the package `log` writes. The texts of errors are left open, and so is the time at which an entry is made. The runtime
reports panics elsewhere (standard error).
-/
namespace Ouro

/-- An entry: a text, or the text of an error. -/
inductive LogEntry
  | text (msg : Bytes)
  | error
  deriving DecidableEq, Repr

/-- `%t` of the package `fmt`, used in main.go:65 and 76. -/
def boolText (b : Bool) : Bytes := if b then b!"true" else b!"false"

/-- `log.Println` of one operand, as in session.go:103 and main.go:30. -/
def println (msg : Bytes) : LogEntry := .text (msg ++ [10])

/-- In which order Go happens to iterate over the headers of a request and of a response. -/
structure Orders where
  req : Request → Header
  rsp : Response → Header

/-- The entries that go with what the client does and sees, oldest first; `state` is the variable of main.go:17. Requests: session.go:103
and 245. Responses: session.go:226. The timer: main.go:24, 30. Stages: main.go:40-54. Packets: main.go:65, 91; one that cannot be read has
no entry of its own. Units: main.go:76. The end: `log.Fatal` of main.go:27, 32, 42, 108, and main.go:61, 71, 86. -/
def logEntries (ord : Orders) (state : Nat) : Act → List LogEntry
  | .wire (.sent _ req _) => [println (req.pack (ord.req req))]
  | .wire (.got rsp) => [println (rsp.pack (ord.rsp rsp))]
  | .wire _ => []
  | .timer => .text (b!"Timer: stage=" ++ natDigits state ++ b!"\n") :: if state = stagePause then [println b!"Stage: Closing"] else []
  | .stage k =>
    if k = stageReady then [println b!"Stage: Ready"]
    else if k = stagePlay then [println b!"Stage: Playing"]
    else if k = stagePause then [println b!"Stage: Pausing"]
    else if k = stageDone then [println b!"Stage: Done"]
    else [.text (b!"Stage: " ++ natDigits k ++ b!"\n")]
  | .packet ch payload =>
    if ch % 2 = 0 then
      match rtpUnpack payload with
      | .ok (.ok p) => [.text (b!"RTP [" ++ natDigits ch.toNat ++ b!"] PT=" ++ natDigits p.pt.toNat ++ b!", CC=" ++ natDigits p.cc.toNat ++
          b!", M=" ++ boolText p.m ++ b!", SN=" ++ natDigits p.sn ++ b!"\r\n")]
      | _ => []
    else
      match rtcpUnpack payload with
      | .ok (.ok p) => [.text (b!"RTCP [" ++ natDigits ch.toNat ++ b!"] PT=" ++ natDigits p.pt.toNat ++ b!", LN=" ++ natDigits p.ln ++
          b!", C=" ++ natDigits p.c.toNat ++ b!"\r\n")]
      | _ => []
  | .unit u => [.text (b!"NAL Zero=" ++ boolText u.zeroBit ++ b!", RefIdc=" ++ natDigits u.refIdc.toNat ++ b!", Type=" ++
      natDigits u.type.toNat ++ b!", Size=" ++ natDigits u.data.length ++ b!"\r\n")]
  | .ended .finished => []
  | .ended _ => [.error]

/-- The client and the log, latest entry first. -/
structure Logged where
  client : Client
  log : List LogEntry := []

/-- The log after the client went from one state to another. When `process` ends, it is with an error (session.go:205), and that is the
last it does. -/
def Logged.follow (ord : Orders) (l : Logged) (c : Client) : Logged :=
  { client := c
    log := (if l.client.running = true ∧ c.running = false then [.error] else []) ++
      (c.trace.take (c.trace.length - l.client.trace.length)).flatMap (fun a => (logEntries ord l.client.state a).reverse) ++ l.log }

/-- A step of the client, with its log. -/
def lstep (ord : Orders) (w : World) (l : Logged) (e : CEv) : Go Logged :=
  match cstep w l.client e with
  | .error p => .error p
  | .ok c => .ok (l.follow ord c)

/-- A schedule. -/
def lsteps (ord : Orders) (w : World) (l : Logged) : List CEv → Go Logged
  | [] => pure l
  | e :: es =>
    match lstep ord w l e with
    | .error p => .error p
    | .ok l => lsteps ord w l es

/-- `clientEarly` with the log: `n` turns of `process`, then OPTIONS is sent. -/
def lopen (ord : Orders) (w : World) (uri : Bytes) (user : Option (Bytes × Bytes)) (rdr : Rdr) (n : Nat) : Go Logged :=
  match turns n { client := { rdr, sess := { newSession with opened := true, baseURI := uri, proto := .tcp, user := user } } } with
  | .error p => .error p
  | .ok l =>
    match l.client.order (Sess.options w l.client.sess) with
    | .error p => .error p
    | .ok c => .ok (l.follow ord c)
where
  turns : Nat → Logged → Go Logged
    | 0, l => pure l
    | n + 1, l =>
      match clientRead w l.client with
      | .error p => .error p
      | .ok c => turns n (l.follow ord c)

/-- What is left open: the date and time that begin the entry number `n`, and the text of the error if it is one. -/
structure LogWorld where
  stamp : Nat → Bytes
  text : Nat → Bytes

/-- `Logger.Output` of the package `log`: an entry is ended with a newline, unless it ends with one. -/
def logOutput (stamp msg : Bytes) : Bytes := stamp ++ msg ++ if msg.getLast? = some 10 then [] else [10]

/-- What is printed. -/
def printed (lw : LogWorld) : List LogEntry → Bytes
  | [] => []
  | .text msg :: older => printed lw older ++ logOutput (lw.stamp older.length) msg
  | .error :: older => printed lw older ++ logOutput (lw.stamp older.length) (lw.text older.length ++ [10])

/-- main.go:106-108 for an address that `url.Parse` refuses (connection.go:58-61): the entry is the text of its error. `quote` is
`strconv.Quote`, and `reason` what `url.Parse` does not like. Simplification: only addresses without `#`; the error names the part before it. -/
def refusal (quote : Bytes → Bytes) (reason uri : Bytes) : LogEntry := println (b!"parse " ++ quote uri ++ b!": " ++ reason)

end Ouro
