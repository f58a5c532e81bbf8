import Verif.Spec.Session
import Verif.Spec.Depacketize
import Verif.Model.Main
/-! # The command line client, stated on what it does and sees (latest first) -/
namespace Ouro.Spec

/-- The client after any schedule, with any connection; `process` may have read any number of times before OPTIONS was sent. -/
def ClientReachable (w : World) (c : Client) : Prop :=
  ∃ uri user rdr n c0 es, clientEarly w uri user rdr n = .ok c0 ∧ csteps w c0 es = .ok c

/-- What matters for the order of things: the session reports a stage, the client makes a request of its own, the client has finished. -/
inductive Milestone
  | reached (stage : Nat)
  | asked (verb : Bytes)
  | finished
  deriving DecidableEq, Repr

/-- The milestones, oldest first. Requests that the session makes itself (OPTIONS, DESCRIBE, SETUP) and those sent again after a 401 do not
count. -/
def milestones : List Act → List Milestone
  | [] => []
  | .wire (.notified k) :: older => milestones older ++ [.reached k]
  | .wire (.sent false req _) :: older =>
    if req.verb = b!"OPTIONS" ∨ req.verb = b!"DESCRIBE" ∨ req.verb = b!"SETUP" then milestones older else milestones older ++ [.asked req.verb]
  | .ended .finished :: older => milestones older ++ [.finished]
  | _ :: older => milestones older

/-- The way a session is meant to go. -/
def course : List Milestone :=
  [.reached 1, .asked b!"PLAY", .reached 2, .asked b!"PAUSE", .reached 3, .asked b!"TEARDOWN", .reached 4, .finished]

/-- The packets given to the client's loop, oldest first. -/
def seen : List Act → List (UInt8 × Bytes)
  | [] => []
  | .packet ch p :: older => seen older ++ [(ch, p)]
  | _ :: older => seen older

/-- The units reported, oldest first: header, timestamp and data. -/
def reported : List Act → List (UInt8 × Nat × Bytes)
  | [] => []
  | .unit u :: older => reported older ++ [(u.header, u.ts, u.data)]
  | _ :: older => reported older

/-- The packets on even channels. -/
def onVideo (ps : List (UInt8 × Bytes)) : List (UInt8 × Bytes) := ps.filter fun x => x.1 % 2 = 0

/-- The bytes of the packets on even channels that the client's loop has taken, oldest first. -/
def videoBytes (t : List Act) : List Bytes := (onVideo (seen t)).map Prod.snd

/-- The frames read from the connection, oldest first. -/
def framesRead : List Act → List (UInt8 × Bytes)
  | [] => []
  | .wire (.data ch p) :: older => framesRead older ++ [(ch, p)]
  | _ :: older => framesRead older

/-- The last stage received by the client's loop; 0, init, if none. -/
def lastStage : List Act → Nat
  | [] => 0
  | .stage k :: _ => k
  | _ :: older => lastStage older

/-- A packet that the client cannot use: RTCP on odd channels, RTP with H.264 on even ones. -/
def BadPacket (ch : UInt8) (p : Bytes) : Prop :=
  if ch % 2 = 0 then (∃ e, rtpUnpack p = .ok (.error e)) ∨ ∃ q sink e sink', rtpUnpack p = .ok (.ok q) ∧ push sink q.pl q.ts = .ok (some e, sink')
  else ∃ e, rtcpUnpack p = .ok (.error e)

/-- What must have happened before something the client does. -/
def Justified (older : List Act) : Act → Prop
  | .wire (.sent false req _) =>
    req.verb = b!"OPTIONS" ∨ req.verb = b!"DESCRIBE" ∨ req.verb = b!"SETUP" ∨
    (req.verb = b!"PLAY" ∧ older.head? = some (.stage 1)) ∨
    (req.verb = b!"PAUSE" ∧ older.head? = some .timer ∧ lastStage older = 2) ∨
    (req.verb = b!"TEARDOWN" ∧ older.head? = some .timer ∧ lastStage older = 3)
  | .ended .finished => older.head? = some .timer ∧ lastStage older = 4
  | .ended .badPacket => ∃ ch p, older.head? = some (.packet ch p) ∧ BadPacket ch p
  | .ended .fatal => ∃ req res, older.head? = some (.wire (.sent false req res)) ∧ res ≠ .ok
  | _ => True

end Ouro.Spec
