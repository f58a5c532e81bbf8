import Verif.Spec.Receive
import Verif.Model.Session
/-!
# RTSP sessions, stated on what goes over the wire

Traces are given latest event first. Nothing here looks at the state of the session.
-/
namespace Ouro.Spec

/-- The request that waits for an answer with the given CSeq: the last one sent with it, if no response with it came since. -/
def pending (c : Int) : List Out → Option Request
  | [] => none
  | .sent _ req _ :: older => if req.cseq = c then some req else pending c older
  | .got rsp :: older => if rsp.cseq = c then none else pending c older
  | _ :: older => pending c older

/-- The CSeq numbers of the new requests (not those sent again after a 401), latest first. -/
def newSeqs : List Out → List Int
  | [] => []
  | .sent false req _ :: older => req.cseq :: newSeqs older
  | _ :: older => newSeqs older

/-- The session identifier the server has assigned: that of the last answer with a Session header, without its parameters. An
answer is a response to a pending request other than a refusal (401). -/
def sessionId : List Out → Bytes
  | [] => []
  | .got rsp :: older =>
    if (pending rsp.cseq older).isSome ∧ rsp.statusCode ≠ 401 ∧ rsp.header.get b!"Session" ≠ [] then
      (rsp.header.get b!"Session").takeWhile (· ≠ 59)
    else sessionId older
  | _ :: older => sessionId older

/-- The stage that is reached when a request is granted. -/
def stageAfter (verb : Bytes) : Option Nat :=
  if verb = b!"PLAY" then some 2 else if verb = b!"PAUSE" then some 3 else if verb = b!"TEARDOWN" then some 4 else none

/-- The state of the session can be reached by some history. -/
def Reachable (w : World) (s : Sess) : Prop := ∃ ops, run w newSession ops = .ok s

/-- A history in which no operation gives an error (so the goroutine that reads from the connection is still running). -/
inductive Runs (w : World) : Sess → List Op → Sess → Prop
  | nil (s) : Runs w s [] s
  | cons {s t u op ops} : step w s op = .ok (t, none) → Runs w t ops u → Runs w s (op :: ops) u

/-- How many requests were sent again. -/
def retries : List Out → Nat
  | [] => 0
  | .sent true _ _ :: older => retries older + 1
  | _ :: older => retries older

/-- How many responses refused a request. -/
def refusals : List Out → Nat
  | [] => 0
  | .got rsp :: older => refusals older + if rsp.statusCode = 401 then 1 else 0
  | _ :: older => refusals older

/-- How many SETUP requests were sent, not counting those sent again. -/
def setupsSent : List Out → Nat
  | [] => 0
  | .sent false req _ :: older => setupsSent older + if req.verb = b!"SETUP" then 1 else 0
  | _ :: older => setupsSent older

/-- How many pending SETUP requests were answered (a 401 is not an answer: the request is sent again). -/
def setupsAnswered : List Out → Nat
  | [] => 0
  | .got rsp :: older =>
    setupsAnswered older + if rsp.statusCode ≠ 401 ∧ (pending rsp.cseq older).map (·.verb) = some b!"SETUP" then 1 else 0
  | _ :: older => setupsAnswered older

/-- What can happen after `Open` to a user who leaves OPTIONS, DESCRIBE and SETUP to the session, as the command line client does. -/
def Plain : Op → Prop
  | .dial _ _ _ => False
  | .open_ _ _ _ => False
  | .options => False
  | .describe => False
  | .setup => False
  | _ => True

/-- What happens without the user, in the goroutine `process`: the session's own keep-alive and what the server sends. -/
def ByItself : Op → Prop
  | .keepAlive _ => True
  | .item _ => True
  | _ => False

/-- The state can be reached by `Open` and such operations. `Open` starts `process` before it sends OPTIONS, so `process` may be ahead of it. -/
def PlainReachable (w : World) (s : Sess) : Prop :=
  ∃ uri proto user early ops, (∀ op ∈ early, ByItself op) ∧ (∀ op ∈ ops, Plain op) ∧
    run w newSession (.dial uri proto user :: early ++ .options :: ops) = .ok s

/-- A part of `Open`. -/
def Opens : Op → Prop
  | .dial _ _ _ => True
  | .open_ _ _ _ => True
  | _ => False

/-- How often Ready was reported. -/
def readies : List Out → Nat
  | [] => 0
  | .notified st :: older => readies older + if st = 1 then 1 else 0
  | _ :: older => readies older

/-- The operations answer each of the requests with the given CSeq numbers once, in any order, with responses of some kind, the last operation
is the last answer, and in between there can be packets and commands of the user. -/
inductive Answered (good : Response → Prop) : List Int → List Op → Prop
  | done : Answered good [] []
  | answer {cs ops} {rsp : Response} : rsp.cseq ∈ cs → good rsp → Answered good (cs.erase rsp.cseq) ops → Answered good cs (.item (.response rsp) :: ops)
  | packet {cs ops} (ch p) : cs ≠ [] → Answered good cs ops → Answered good cs (.item (.frame ch p) :: ops)
  | play {cs ops} : cs ≠ [] → Answered good cs ops → Answered good cs (.play :: ops)
  | pause {cs ops} : cs ≠ [] → Answered good cs ops → Answered good cs (.pause :: ops)
  | teardown {cs ops} : cs ≠ [] → Answered good cs ops → Answered good cs (.teardown :: ops)
  | keepAlive {cs ops} (due) : cs ≠ [] → Answered good cs ops → Answered good cs (.keepAlive due :: ops)

/-- `k + 1, ..., k + n`. -/
def numbers (k n : Nat) : List Int := (List.range n).map fun i : Nat => (k : Int) + 1 + i

end Ouro.Spec
