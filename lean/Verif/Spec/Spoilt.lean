import Verif.Spec.TransportField
/-!
# What a refused field of a `Transport` header leaves behind

`atoi` is `strconv.Atoi`: its number besides the error is 0, or the nearest `int` if the text is too large a number.
-/
namespace Ouro.Spec

/-- A text that is no range, and the pair that is stored: the first number is bad, or the second is. -/
inductive SpoiltRange : Bytes → Pair → Prop
  | first {a rest : Bytes} : (45 : UInt8) ∉ a → (rest = [] ∨ rest.head? = some 45) → (∀ i, ¬ Numeral a i) → SpoiltRange (a ++ rest) ⟨(atoi a).1, 0⟩
  | second {a b rest : Bytes} {i : Int} : (45 : UInt8) ∉ a → (45 : UInt8) ∉ b → (rest = [] ∨ rest.head? = some 45) → Numeral a i → (∀ j, ¬ Numeral b j) →
      SpoiltRange (a ++ 45 :: (b ++ rest)) ⟨i, i64 (i + 1)⟩

/-- A field with two slashes names the lower protocol, whatever else it is. -/
def Lowered (t : Transport) (f : Bytes) (t' : Transport) : Prop :=
  (∃ a b c : Bytes, f = a ++ 47 :: (b ++ 47 :: c) ∧ (47 : UInt8) ∉ a ∧ (47 : UInt8) ∉ b ∧ (47 : UInt8) ∉ c ∧ t' = { t with isTCP := decide (toUpper c = b!"TCP") }) ∨
  ((∀ a b c : Bytes, f = a ++ 47 :: (b ++ 47 :: c) → (47 : UInt8) ∈ a ∨ (47 : UInt8) ∈ b ∨ (47 : UInt8) ∈ c) ∧ t' = t)

/-- What a field that does not have the value its name needs makes of a transport. -/
inductive Leaves (t : Transport) : Bytes → Option Bytes → Transport → Prop
  | bare {key : Bytes} : key ∈ textNames ++ numberNames ++ rangeNames → key ≠ b!"interleaved" → Leaves t key none t
  | interleaved : Leaves t b!"interleaved" none { t with isMulticast := false }
  | ttl {v : Bytes} : (∀ i, ¬ Numeral v i) → Leaves t b!"ttl" (some v) { t with ttl := (atoi v).1 }
  | layers {v : Bytes} : (∀ i, ¬ Numeral v i) → Leaves t b!"layers" (some v) { t with layers := (atoi v).1 }
  | channels {v : Bytes} {p : Pair} : SpoiltRange v p → Leaves t b!"interleaved" (some v) { t with isMulticast := false, interleave := p }
  | port {v : Bytes} {p : Pair} : SpoiltRange v p → Leaves t b!"port" (some v) { t with port := p }
  | clientPort {v : Bytes} {p : Pair} : SpoiltRange v p → Leaves t b!"client_port" (some v) { t with clientPort := p }
  | serverPort {v : Bytes} {p : Pair} : SpoiltRange v p → Leaves t b!"server_port" (some v) { t with serverPort := p }

end Ouro.Spec
