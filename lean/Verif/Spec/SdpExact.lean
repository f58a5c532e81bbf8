import Verif.Spec.Sdp
/-!
# Specification: what is really taken from the attribute lines

Every field of an attribute line is tried as `encoding/clock` and as a list of parameters, whatever the attribute is.
-/
namespace Ouro.Spec

/-- A printable attribute line: numbers fit an `int`; a control URL is any printable text; there is a parameter at least,
parameter names are not empty and have none of the separators, and values have no semicolon. -/
def Attr.Printable : Attr → Prop
  | .rtpmap pt clock => pt < 2 ^ 63 ∧ clock < 2 ^ 63
  | .control url => ∀ c ∈ url, graphic c = true
  | .fmtp _ params => params ≠ [] ∧ ∀ p ∈ params, (p.1 ≠ [] ∧ ∀ c ∈ p.1, graphic c = true ∧ c ≠ 61 ∧ c ≠ 59 ∧ c ≠ 47 ∧ c ≠ 58) ∧
      ∀ c ∈ p.2, graphic c = true ∧ c ≠ 59

/-- The number between the first and the second slash of a text (or its end), if there is one. -/
def slashNumber (s : Bytes) : Option Int :=
  (split 47 s)[1]?.bind fun a => if (atoi a).2.isNone then some (atoi a).1 else none

/-- The number a line gives for a clock rate: an `rtpmap` line rightly, the others by having a number after a slash. -/
def Attr.clock : Attr → Option Int
  | .rtpmap _ clock => some clock
  | .control url => slashNumber (b!"control:" ++ url)
  | .fmtp _ params => slashNumber (paramText params)

/-- The values of `sprop-parameter-sets` taken from a line: those of an `fmtp` line with two parameters at least, and those
in a control URL, after its first semicolon. -/
def Attr.sprops : Attr → List Bytes
  | .rtpmap .. => []
  | .control url => (split 59 url).tail.filterMap fun piece =>
      (cut 61 piece).bind fun p => if p.1 = b!"sprop-parameter-sets" then some p.2 else none
  | .fmtp _ params =>
    if 2 ≤ params.length then (params.filter fun p => p.1 = b!"sprop-parameter-sets").map (·.2) else []

/-- The parameter sets in a value: base64, separated by commas. -/
def setsOf (v : Bytes) : List Bytes := (split 44 v).map fun f => (b64Decode f).1

end Ouro.Spec
