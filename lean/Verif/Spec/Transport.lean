import Verif.Model.Transport
/-!
# The RTSP `Transport` header (RFC 2326, 12.39), stated independently of the parser

A header is the profile `RTP/AVP`, an optional lower transport, and parameters separated by semicolons.
-/
namespace Ouro.Spec

/-- `n` or `n-m`. -/
structure Range where
  lo : Nat
  hi : Option Nat

def Range.text (r : Range) : Bytes :=
  match r.hi with
  | none => natDigits r.lo
  | some h => natDigits r.lo ++ b!"-" ++ natDigits h

/-- The pair of numbers a range stands for; 0 for the missing one. -/
def Range.pair (r : Range) : Pair := ⟨r.lo, (r.hi.getD 0 : Nat)⟩

/-- The parameters of the grammar. -/
inductive TParam
  | unicast
  | multicast
  | destination (v : Bytes)
  | source (v : Bytes)
  | interleaved (r : Range)
  | append
  | ttl (n : Nat)
  | layers (n : Nat)
  | port (r : Range)
  | clientPort (r : Range)
  | serverPort (r : Range)
  | ssrc (v : Bytes)
  | mode (v : Bytes)

def TParam.name : TParam → Bytes
  | .unicast => b!"unicast"
  | .multicast => b!"multicast"
  | .destination _ => b!"destination"
  | .source _ => b!"source"
  | .interleaved _ => b!"interleaved"
  | .append => b!"append"
  | .ttl _ => b!"ttl"
  | .layers _ => b!"layers"
  | .port _ => b!"port"
  | .clientPort _ => b!"client_port"
  | .serverPort _ => b!"server_port"
  | .ssrc _ => b!"ssrc"
  | .mode _ => b!"mode"

def TParam.value : TParam → Option Bytes
  | .unicast | .multicast | .append => none
  | .destination v | .source v | .ssrc v | .mode v => some v
  | .interleaved r | .port r | .clientPort r | .serverPort r => some r.text
  | .ttl n | .layers n => some (natDigits n)

/-- A parameter as it appears in a header: `written` is its name in any mixture of upper and lower case. -/
structure TItem where
  written : Bytes
  param : TParam

def TItem.text (i : TItem) : Bytes :=
  match i.param.value with
  | none => i.written
  | some v => i.written ++ b!"=" ++ v

/-- The lower transport. -/
inductive Lower
  | unspecified
  | tcp
  | udp

def Lower.text : Lower → Bytes
  | .unspecified => []
  | .tcp => b!"/TCP"
  | .udp => b!"/UDP"

/-- The header text. -/
def transportText (low : Lower) (items : List TItem) : Bytes := b!"RTP/AVP" ++ low.text ++ items.flatMap fun i => b!";" ++ i.text

/-- What a parameter says about a transport. Interleaving excludes multicast. -/
def TParam.apply (t : Transport) : TParam → Transport
  | .unicast => { t with isMulticast := false }
  | .multicast => { t with isMulticast := true }
  | .destination v => { t with destination := v }
  | .source v => { t with source := v }
  | .interleaved r => { t with isMulticast := false, interleave := r.pair }
  | .append => { t with isAppend := true }
  | .ttl n => { t with ttl := n }
  | .layers n => { t with layers := n }
  | .port r => { t with port := r.pair }
  | .clientPort r => { t with clientPort := r.pair }
  | .serverPort r => { t with serverPort := r.pair }
  | .ssrc v => { t with ssrc := v }
  | .mode v => { t with mode := v }

def Lower.apply (t : Transport) : Lower → Transport
  | .unspecified => t
  | .tcp => { t with isTCP := true }
  | .udp => { t with isTCP := false }

/-- A machine `int`. -/
def IntFits (n : Nat) : Prop := n < 2 ^ 63

def Range.WF (r : Range) : Prop := IntFits r.lo ∧ ∀ h, r.hi = some h → IntFits h

/-- A text value: no semicolon, and not exactly two slashes. -/
def TextWF (v : Bytes) : Prop := (59 : UInt8) ∉ v ∧ v.count 47 ≠ 2

def TParam.WF : TParam → Prop
  | .unicast | .multicast | .append => True
  | .destination v | .source v | .ssrc v | .mode v => TextWF v
  | .interleaved r | .port r | .clientPort r | .serverPort r => r.WF
  | .ttl n | .layers n => IntFits n

def TItem.WF (i : TItem) : Prop := i.written.map lower1 = i.param.name ∧ i.param.WF

/-- A transport that can be written as a header: text values as above, numbers that are written are non-negative and fit in an
`int`. -/
structure HeaderOk (t : Transport) : Prop where
  dest : TextWF t.destination
  src : TextWF t.source
  ssrc : TextWF t.ssrc
  mode : TextWF t.mode
  inter : t.isInterleaved = true → 0 ≤ t.interleave.one ∧ t.interleave.one < 2 ^ 63 ∧ 0 ≤ t.interleave.two ∧ t.interleave.two < 2 ^ 63
  port : t.port.one > 0 → t.port.one < 2 ^ 63 ∧ 0 ≤ t.port.two ∧ t.port.two < 2 ^ 63
  cport : t.clientPort.one > 0 → t.clientPort.one < 2 ^ 63 ∧ 0 ≤ t.clientPort.two ∧ t.clientPort.two < 2 ^ 63
  sport : t.serverPort.one > 0 → t.serverPort.one < 2 ^ 63 ∧ 0 ≤ t.serverPort.two ∧ t.serverPort.two < 2 ^ 63
  ttl : t.ttl < 2 ^ 63
  layers : t.layers < 2 ^ 63

/-- Two pairs of channels or ports have no number in common. -/
def Disjoint (p q : Pair) : Prop := p.one ≠ q.one ∧ p.one ≠ q.two ∧ p.two ≠ q.one ∧ p.two ≠ q.two

/-- The pair a transport uses: channels when the data is interleaved, client ports for unicast, ports for multicast. -/
def usedPair (proto : Proto) (t : Transport) : Pair :=
  match proto with
  | .tcp | .http => t.interleave
  | .unicast => t.clientPort
  | .multicast => t.port

end Ouro.Spec
