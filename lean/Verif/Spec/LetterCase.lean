import Verif.Spec.Message
import Verif.Spec.Sdp
/-!
# Specification: names in upper and lower case, for C153

RFC 2326, 3.1 and RFC 2616, 4.2 (names of headers), RFC 2326, 12.39 (Transport), RFC 4855, 3 (names of encodings and of their parameters). Independent of the model.
-/
namespace Ouro.Spec

/-- A field of a Transport header: `name` or `name=value`. The first is `RTP/AVP` or `RTP/AVP/TCP`. -/
structure WField where
  name : Bytes
  value : Option Bytes

def WField.text (f : WField) : Bytes :=
  f.name ++ match f.value with
    | none => []
    | some v => 61 :: v

/-- The name is ASCII text without an equals sign, and there is no semicolon in the field. -/
def WField.WF (f : WField) : Prop := (∀ c ∈ f.name, c < 128 ∧ c ≠ 61 ∧ c ≠ 59) ∧ ∀ v, f.value = some v → (59 : UInt8) ∉ v

/-- The fields of a Transport header. -/
def fieldsText : List WField → Bytes
  | [] => []
  | [f] => f.text
  | f :: fs => f.text ++ 59 :: fieldsText fs

/-- The same fields, but for upper and lower case in their names. -/
def SameButNames (fs gs : List WField) : Prop := fs.map (fun f => (lowerAscii f.name, f.value)) = gs.map fun f => (lowerAscii f.name, f.value)

/-- The same header lines, but for upper and lower case in their names, and for the blanks before the values. -/
def SameButKeys (hs hs' : List SentHeader) : Prop := hs.map (fun h => (lowerAscii h.name, h.value)) = hs'.map fun h => (lowerAscii h.name, h.value)

/-- `a=rtpmap:<pt> <name>/<clock>` -/
def encodingLine (pt : Nat) (name : Bytes) (clock : Nat) : Bytes := b!"a=rtpmap:" ++ natDigits pt ++ 32 :: (name ++ 47 :: natDigits clock)

/-- The name of an encoding: printable, without a slash, colon or semicolon. -/
def EncodingName (name : Bytes) : Prop := ∀ c ∈ name, graphic c = true ∧ c ≠ 47 ∧ c ≠ 58 ∧ c ≠ 59

end Ouro.Spec
