import Verif.Model.Message
/-!
# Model of `receive` and `process` of net/rtsp/session.go

Here only which frames and responses are taken from the connection; what the session does with a response is in
Model/Session.
-/
namespace Ouro

/-- What `receive` takes from the connection: a packet for the `Data` channel (connection.go:41-44 `RawPacket`) or a response for
`handleRtsp`. -/
inductive Item
  | frame (ch : UInt8) (payload : Bytes)
  | response (rsp : Response)
  deriving DecidableEq, Repr

/-- session.go:175-190: the rest of a frame after the dollar sign has been seen. -/
def recvFrame (r : Rdr) : Except MsgErr Item × Rdr :=
  match (r.discard 1).readByte with
  | (.error e, r) => (.error (.io e), r)
  | (.ok ch, r) =>
    match r.readUint16 with
    | (.error e, r) => (.error (.io e), r)
    | (.ok length, r) =>
      match r.readBytes length with
      | (.error e, r) => (.error (.io e), r)
      | (.ok buf, r) => (.ok (.frame ch buf), r)

/-- session.go:167-193 `receive`, with the first statement of `handleRtsp` (session.go:222-224). -/
def recv (r : Rdr) : Except MsgErr Item × Rdr :=
  match r.peek 1 with
  | (.error e, r) => (.error (.io e), r)
  | (.ok b, r) =>
    if b = [36] then recvFrame r
    else match unpackRsp r with
      | (.error e, r) => (.error e, r)
      | (.ok rsp, r) => (.ok (.response rsp), r)

/-- The goroutine `process`: the reader, the state of whatever handles the items, and whether it is still running. -/
structure Proc (σ : Type) where
  rdr : Rdr
  state : σ
  running : Bool := true

/-- session.go:195-210 `process`: one turn of the loop. `handle` is what is done with an item; it answers whether there was an
error that ends the loop. A timeout (connection.go:49-54) does not end it. `KeepAlive` is in Model/Session; the `done` channel
is nil and never ready. -/
def procStep {σ : Type} (handle : σ → Item → σ × Bool) (p : Proc σ) : Proc σ :=
  if p.running then
    match recv p.rdr with
    | (.error (.io .timeout), r) => ⟨r, p.state, true⟩
    | (.error _, r) => ⟨r, p.state, false⟩
    | (.ok item, r) => ⟨r, (handle p.state item).1, !(handle p.state item).2⟩
  else p

/-- Any number of turns. -/
def procN {σ : Type} (handle : σ → Item → σ × Bool) : Nat → Proc σ → Proc σ
  | 0, p => p
  | n + 1, p => procN handle n (procStep handle p)

end Ouro
