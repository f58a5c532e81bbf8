import Verif.Spec.Transport
/-! # Slashes in the parameters of a `Transport` header -/
namespace Ouro.Spec

/-- The parameters of the grammar: no semicolon in a text, numbers that fit in an `int`. -/
def TParam.Legal : TParam → Prop
  | .unicast | .multicast | .append => True
  | .destination v | .source v | .ssrc v | .mode v => (59 : UInt8) ∉ v
  | .interleaved r | .port r | .clientPort r | .serverPort r => r.WF
  | .ttl n | .layers n => IntFits n

def TItem.Legal (i : TItem) : Prop := i.written.map lower1 = i.param.name ∧ i.param.Legal

/-- What follows the last slash. -/
def afterSlash (v : Bytes) : Bytes := (v.reverse.takeWhile (· ≠ 47)).reverse

/-- Whether a parameter looks like a protocol, that is has two slashes, and then whether this protocol is TCP. -/
def TItem.names (i : TItem) : Option Bool :=
  match i.param.value with
  | none => none
  | some v => if v.count 47 = 2 then some (decide (toUpper (afterSlash v) = b!"TCP")) else none

end Ouro.Spec
