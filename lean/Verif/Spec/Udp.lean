import Verif.Model.Udp
/-! # UDP listeners, stated on the schedule -/
namespace Ouro.Spec

/-- The datagrams that arrive in a schedule, with the channel number of the listener. First argument: the channel numbers of the listeners so far. -/
def arrived : List UInt8 → List UEv → List (UInt8 × Bytes)
  | _, [] => []
  | chs, .addSink ch :: es => arrived (chs ++ [ch]) es
  | chs, .datagram i p :: es =>
    match chs[i]? with
    | some ch => (ch, p) :: arrived chs es
    | none => arrived chs es
  | chs, _ :: es => arrived chs es

/-- The schedule is possible and leads to this state. -/
def Leads (es : List UEv) (s : Udp) : Prop := usteps {} es = some s

/-- How many listeners are made. -/
def listeners : List UEv → Nat
  | [] => 0
  | .addSink _ :: es => listeners es + 1
  | _ :: es => listeners es

end Ouro.Spec
