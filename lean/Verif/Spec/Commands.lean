import Verif.Spec.Session
import Verif.Spec.Sdp
/-! # The requests a session makes, stated on the wire -/
namespace Ouro.Spec

/-- The requests of the user that change the stage. -/
def IsCommand (verb : Bytes) : Prop := verb = b!"PLAY" ∨ verb = b!"PAUSE" ∨ verb = b!"TEARDOWN"

/-- What the user of a session is told: stages and packets, on the channels `State` and `Data`. -/
def toldUser : List Out → List Out
  | [] => []
  | .notified k :: older => .notified k :: toldUser older
  | .data ch p :: older => .data ch p :: toldUser older
  | _ :: older => toldUser older

/-- The address of a stream, RFC 2326 C.1.1: an absolute control URL is used as it is, `*` stands for the address of the presentation, anything
else is below that address. -/
def streamURI (base control : Bytes) : Bytes :=
  if (b!"rtsp://").isPrefixOf control then control else if control = b!"*" then base else base ++ b!"/" ++ control

/-- The transport asked for the `i`-th stream (from 0): channels `2 i` and `2 i + 1` of the connection, or UDP ports from 50000. -/
def askedTransport (proto : Proto) (i : Nat) : Bytes :=
  match proto with
  | .tcp | .http => b!"RTP/AVP/TCP;interleaved=" ++ natDigits (2 * i) ++ b!"-" ++ natDigits (2 * i + 1)
  | .unicast => b!"RTP/AVP;unicast;client_port=" ++ natDigits (50000 + 2 * i) ++ b!"-" ++ natDigits (50000 + 2 * i + 1)
  | .multicast => b!"RTP/AVP;multicast;port=" ++ natDigits (50000 + 2 * i) ++ b!"-" ++ natDigits (50000 + 2 * i + 1)

/-- The last stage reported; 0, init, if none. -/
def stageNow : List Out → Nat
  | [] => 0
  | .notified k :: _ => k
  | _ :: older => stageNow older

end Ouro.Spec
