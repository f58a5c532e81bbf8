import Verif.Spec.EndToEnd
import Verif.Spec.Transport
/-!
# The client and a server that grants its requests

The server is a function from requests to responses. The two and the network take turns in any order; what a fair order is, and what is
expected of the server, is stated here.
-/
namespace Ouro.Spec

/-- The client and the number of requests the server has answered so far. -/
structure Dialogue where
  client : Client
  answered : Nat := 0

/-- What happens next: a turn of the client; the server answers the oldest request it has not answered, if there is one; it sends a packet; a
read deadline expires between two messages. -/
inductive DEv
  | client (e : CEv)
  | answer
  | frame (ch : UInt8) (payload : Bytes)
  | quiet

/-- The requests sent so far, oldest first. -/
def asked : List Act → List Request
  | [] => []
  | .wire (.sent _ req _) :: older => asked older ++ [req]
  | _ :: older => asked older

/-- More arrives on the connection. -/
def Dialogue.deliver (d : Dialogue) (evs : List Ev) : Dialogue :=
  { d with client := { d.client with rdr := { d.client.rdr with net := d.client.rdr.net ++ evs } } }

/-- When the client reads and there is nothing to read, the deadline expires: the end of what arrives on the connection in the model is the end
of the connection, and the server does not close it. -/
def Dialogue.await (d : Dialogue) : CEv → Dialogue
  | .read => if d.client.rdr.buf.isEmpty && d.client.rdr.net.isEmpty then d.deliver [.timeout] else d
  | _ => d

/-- One step. -/
def dstep (w : World) (srv : Nat → Request → Sent) (d : Dialogue) : DEv → Go Dialogue
  | .client e =>
    match cstep w (d.await e).client e with
    | .error p => .error p
    | .ok c => .ok { d with client := c }
  | .answer =>
    match (asked d.client.trace)[d.answered]? with
    | none => .ok d
    | some req => .ok { d.deliver ((Msg.response (srv d.answered req)).bytes.map .byte) with answered := d.answered + 1 }
  | .frame ch payload => .ok (d.deliver ((Msg.frame ch payload).bytes.map .byte))
  | .quiet => .ok (d.deliver [.timeout])

/-- The state after `n` steps. -/
def drun (w : World) (srv : Nat → Request → Sent) (d : Dialogue) (sched : Nat → DEv) : Nat → Go Dialogue
  | 0 => .ok d
  | n + 1 =>
    match drun w srv d sched n with
    | .error p => .error p
    | .ok d => dstep w srv d (sched n)

/-- The dialogue after `Open`: nothing has arrived yet. -/
def dopen (w : World) (uri : Bytes) (user : Option (Bytes × Bytes)) : Go Dialogue :=
  match clientOpen w uri user ⟨[], none, []⟩ with
  | .error p => .error p
  | .ok c => .ok { client := c }

/-- Every part of the client gets its turn again and again, and the server answers again and again. -/
def Fair (sched : Nat → DEv) : Prop :=
  (∀ e n, ∃ m, n ≤ m ∧ sched m = .client e) ∧ ∀ n, ∃ m, n ≤ m ∧ sched m = .answer

/-- A challenge with well-formed parameters and an algorithm that the client knows. -/
def Challenge (v : Bytes) : Prop :=
  ∃ (basic : Bool) (ps : List Param), ps ≠ [] ∧ (∀ p ∈ ps, p.WF) ∧ (∀ p, ps.getLast? = some p → p.after = []) ∧
    ((lastValue .algorithm ps).map toLower).getD b!"md5" ∈ [b!"md5", b!"md5-sess"] ∧ v = (if basic then b!"Basic " else b!"Digest ") ++ paramsText ps

/-- A description with at least one video stream, or exactly one, whose parameter sets can be parsed. -/
def Describes (w : World) (one : Bool) (body : Bytes) : Prop :=
  ∃ ms, sdpParse body = .ok ms ∧ ms ≠ [] ∧ (one = true → ms.length = 1) ∧ ms.length < 2 ^ 60 ∧ ∀ m ∈ ms, ∃ x, spropLoop w.inf newParameterSets m.spropParameterSets = .ok (x, none)

/-- What client and server have agreed on: the credentials the user gave, whether the server offers no more than one stream, and how many of the
requests, from the first on, it may refuse although they carry credentials (their nonce may be stale). -/
structure Terms where
  user : Option (Bytes × Bytes)
  one : Bool
  patience : Nat

/-- The response grants the request: status 200, for DESCRIBE with a description, for SETUP with a Transport header of the grammar for TCP. -/
structure Obliges (w : World) (tm : Terms) (req : Request) (x : Sent) : Prop where
  code : x.code = 200
  describe : req.verb = b!"DESCRIBE" → Describes w tm.one x.body
  setup : req.verb = b!"SETUP" → ∃ items : List TItem, (∀ i ∈ items, i.WF) ∧ x.value b!"Transport" = some (transportText .tcp items)

/-- The response asks for credentials. That is if the user gave some; the request, of number `k`, has none or is one of the first; and it is not
the SETUP of one of several streams. -/
structure Demands (tm : Terms) (k : Nat) (req : Request) (x : Sent) : Prop where
  code : x.code = 401
  alone : req.verb = b!"SETUP" → tm.one = true
  bare : req.auth = [] ∨ k < tm.patience
  known : tm.user ≠ none
  challenge : ∃ v, x.value b!"WWW-Authenticate" = some v ∧ Challenge v

/-- A response the client can work with. -/
structure Cooperates (w : World) (tm : Terms) (k : Nat) (req : Request) (x : Sent) : Prop where
  wf : x.WF
  small : x.body.length ≤ 2048
  cseq : x.value b!"CSeq" = some (itoa req.cseq)
  kind : Obliges w tm req x ∨ Demands tm k req x

/-- A packet the client can use: RTP with H.264 on an even channel, RTCP on an odd one. -/
def UsableFrame (ch : UInt8) (p : Bytes) : Prop :=
  p.length ≤ 2048 ∧
  ((∃ v : Video, v.Valid ∧ ch = v.ch ∧ p = v.rtp.encode) ∨
   (ch % 2 ≠ 0 ∧ ∃ padding count len i rest, count < 32 ∧ len < 65536 ∧ SenderInfo.Valid i ∧ count * 24 ≤ rest.length ∧ p = senderReport padding count len i rest) ∨
   (ch % 2 ≠ 0 ∧ ∃ (b0 pt x y : UInt8) (rest : Bytes), b0.toNat / 64 = 2 ∧ pt ≠ 200 ∧ p = b0 :: pt :: x :: y :: rest))

end Ouro.Spec
