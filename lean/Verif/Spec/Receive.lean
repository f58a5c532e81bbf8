import Verif.Spec.Message
import Verif.Model.Receive
/-!
# The RTSP connection (RFC 2326, section 10.12): responses and interleaved frames, stated independently of the code
-/
namespace Ouro.Spec

/-- What the server sends. -/
inductive Msg
  | frame (ch : UInt8) (payload : Bytes)
  | response (s : Sent)

/-- A frame is a dollar sign, the channel, the length in two bytes and the payload. -/
def Msg.bytes : Msg → Bytes
  | .frame ch payload => [36, ch, UInt8.ofNat (payload.length / 256), UInt8.ofNat (payload.length % 256)] ++ payload
  | .response s => s.text

/-- A legal message. -/
def Msg.Legal : Msg → Prop
  | .frame _ payload => payload.length ≤ 65535
  | .response s => s.WF ∧ ∃ n, n < 2 ^ 63 ∧ s.value b!"CSeq" = some (natDigits n)

/-- The size of the data in it. -/
def Msg.size : Msg → Nat
  | .frame _ payload => payload.length
  | .response s => s.body.length

/-- What the session should take from the connection for a message. -/
def Delivered : Msg → Item → Prop
  | .frame ch payload, .frame ch' payload' => ch' = ch ∧ payload' = payload
  | .response s, .response rsp =>
    rsp.statusCode = s.code ∧ rsp.body = (if s.body = [] then none else some s.body) ∧
    s.value b!"CSeq" = some (itoa rsp.cseq) ∧ ∀ name, IsName name → rsp.header.get name = (s.value name).getD []
  | _, _ => False

/-- What the connection delivers: messages, in pieces of any size, with read deadlines expiring between them. `steps` counts
both. -/
inductive Arrives : List Msg → Nat → List Ev → List Ev → Prop
  | nil (rest) : Arrives [] 0 rest rest
  | timeout {ms n evs rest} : Arrives ms n evs rest → Arrives ms (n + 1) (.timeout :: evs) rest
  | msg {m ms n evs rest} : Arrives ms n evs rest → Arrives (m :: ms) (n + 1) (m.bytes.map .byte ++ evs) rest

/-- Pointwise relation of two lists. -/
inductive All2 {α β : Type} (R : α → β → Prop) : List α → List β → Prop
  | nil : All2 R [] []
  | cons {a b as bs} : R a b → All2 R as bs → All2 R (a :: as) (b :: bs)

end Ouro.Spec
