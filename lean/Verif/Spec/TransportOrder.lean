import Verif.Spec.TransportField
/-! # What a field of a `Transport` header says about the transport -/
namespace Ouro.Spec

/-- The parts of a transport. -/
inductive TPart
  | tcp | multicast | interleaved | append | channels | port | clientPort | serverPort | layers | ttl | destination | source | ssrc | mode
  deriving DecidableEq

/-- The values they have. -/
inductive TVal
  | flag (b : Bool)
  | pair (p : Pair)
  | number (i : Int)
  | text (v : Bytes)
  deriving DecidableEq

/-- The value of a part. -/
def TPart.of (t : Transport) : TPart → TVal
  | .tcp => .flag t.isTCP
  | .multicast => .flag t.isMulticast
  | .interleaved => .flag t.isInterleaved
  | .append => .flag t.isAppend
  | .channels => .pair t.interleave
  | .port => .pair t.port
  | .clientPort => .pair t.clientPort
  | .serverPort => .pair t.serverPort
  | .layers => .number t.layers
  | .ttl => .number t.ttl
  | .destination => .text t.destination
  | .source => .text t.source
  | .ssrc => .text t.ssrc
  | .mode => .text t.mode

/-- The name of a field in any mixture of upper and lower case, and its value. -/
def Named (f name : Bytes) (val : Option Bytes) : Prop := ∃ key, FieldText f key val ∧ toLower key = name

/-- What a field says about a part. A field with two slashes names the lower protocol, whatever else it is; channels are for one receiver, so `interleaved` also says unicast. -/
inductive Sets : Bytes → TPart → TVal → Prop
  | lower {a b c : Bytes} : (47 : UInt8) ∉ a → (47 : UInt8) ∉ b → (47 : UInt8) ∉ c → Sets (a ++ 47 :: (b ++ 47 :: c)) .tcp (.flag (toUpper c = b!"TCP"))
  | unicast {f val} : Named f b!"unicast" val → Sets f .multicast (.flag false)
  | multicast {f val} : Named f b!"multicast" val → Sets f .multicast (.flag true)
  | single {f val} : Named f b!"interleaved" val → Sets f .multicast (.flag false)
  | append {f val} : Named f b!"append" val → Sets f .append (.flag true)
  | channels {f v p} : Named f b!"interleaved" (some v) → RangeText v p → Sets f .channels (.pair p)
  | port {f v p} : Named f b!"port" (some v) → RangeText v p → Sets f .port (.pair p)
  | clientPort {f v p} : Named f b!"client_port" (some v) → RangeText v p → Sets f .clientPort (.pair p)
  | serverPort {f v p} : Named f b!"server_port" (some v) → RangeText v p → Sets f .serverPort (.pair p)
  | layers {f v i} : Named f b!"layers" (some v) → Numeral v i → Sets f .layers (.number i)
  | ttl {f v i} : Named f b!"ttl" (some v) → Numeral v i → Sets f .ttl (.number i)
  | destination {f v} : Named f b!"destination" (some v) → Sets f .destination (.text v)
  | source {f v} : Named f b!"source" (some v) → Sets f .source (.text v)
  | ssrc {f v} : Named f b!"ssrc" (some v) → Sets f .ssrc (.text v)
  | mode {f v} : Named f b!"mode" (some v) → Sets f .mode (.text v)

/-- No two fields say different things about the same part. -/
def Consistent (fields : List Bytes) : Prop := ∀ f ∈ fields, ∀ g ∈ fields, ∀ k v w, Sets f k v → Sets g k w → v = w

end Ouro.Spec
