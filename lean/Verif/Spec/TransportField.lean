import Verif.Spec.Transport
/-!
# What each field of a `Transport` header says, for every text

A header is fields separated by semicolons. A field is a name, or a name, an equals sign and a value.
-/
namespace Ouro.Spec

/-- The value of decimal digits. -/
def decimal (ds : Bytes) : Nat := ds.foldl (fun n c => n * 10 + (c.toNat - 48)) 0

/-- A whole number: an optional sign, digits, and a value that fits in 64 bits. -/
def Numeral (v : Bytes) (i : Int) : Prop :=
  ∃ sign ds : Bytes, v = sign ++ ds ∧ ds ≠ [] ∧ (∀ c ∈ ds, isDigit c = true) ∧
    ((sign = [] ∨ sign = b!"+") ∧ i = decimal ds ∨ sign = b!"-" ∧ i = -(decimal ds : Int)) ∧ -(2 ^ 63) ≤ i ∧ i < 2 ^ 63

/-- `n`, or `n-m`, or `n-m-` and anything: what the code takes for a range. -/
def RangeText (v : Bytes) (p : Pair) : Prop :=
  ((45 : UInt8) ∉ v ∧ Numeral v p.one ∧ p.two = 0) ∨
  (∃ a b rest : Bytes, v = a ++ 45 :: (b ++ rest) ∧ (45 : UInt8) ∉ a ∧ (45 : UInt8) ∉ b ∧ (rest = [] ∨ rest.head? = some 45) ∧ Numeral a p.one ∧ Numeral b p.two)

/-- A field with name `key`; `val` is the value after the first equals sign, if there is one. -/
def FieldText (f key : Bytes) (val : Option Bytes) : Prop :=
  (61 : UInt8) ∉ key ∧ (val = none ∧ f = key ∨ ∃ v, val = some v ∧ f = key ++ 61 :: v)

/-- The names that need a text. -/
def textNames : List Bytes := [b!"destination", b!"source", b!"ssrc", b!"mode"]
/-- The names that need a number. -/
def numberNames : List Bytes := [b!"ttl", b!"layers"]
/-- The names that need a range. -/
def rangeNames : List Bytes := [b!"interleaved", b!"port", b!"client_port", b!"server_port"]

/-- A field that has the value its name needs, in any mixture of upper and lower case. Other names need nothing. -/
def FieldOk (f : Bytes) : Prop :=
  ∀ key val, FieldText f key val →
    (toLower key ∈ textNames → ∃ v, val = some v) ∧
    (toLower key ∈ numberNames → ∃ v i, val = some v ∧ Numeral v i) ∧
    (toLower key ∈ rangeNames → ∃ v p, val = some v ∧ RangeText v p)

end Ouro.Spec
