import Verif.Go.Strings
/-! # Specification: HTTP authentication (RFC 2617) -/
namespace Ouro.Spec

/-! ## Challenges -/

/-- The parameters of a challenge. -/
inductive PName | realm | domain | nonce | opaque_ | stale | algorithm | qop
  deriving DecidableEq

def PName.text : PName → Bytes
  | .realm => b!"realm" | .domain => b!"domain" | .nonce => b!"nonce" | .opaque_ => b!"opaque" | .stale => b!"stale"
  | .algorithm => b!"algorithm" | .qop => b!"qop"

/-- A parameter as a server writes it: the name in any mixture of cases, the value with or without quotes, with white space
around it. `more` are further values of a list (`qop="auth,auth-int"`). -/
structure Param where
  name : PName
  written : Bytes
  value : Bytes
  more : List Bytes := []
  quoted : Bool
  before : Bytes := []
  after : Bytes := []

/-- Values separated by commas. -/
def commas (first : Bytes) : List Bytes → Bytes
  | [] => first
  | m :: ms => first ++ 44 :: commas m ms

def Param.text (p : Param) : Bytes :=
  p.before ++ (p.written ++ 61 :: (if p.quoted then 34 :: (commas p.value p.more ++ [34]) else p.value)) ++ p.after

/-- Upper and lower case are equivalent in names. -/
def lowerAscii (s : Bytes) : Bytes := s.map lower1

/-- A printable character other than space. -/
def visible (c : UInt8) : Bool := 33 ≤ c && c ≤ 126

/-- Well-formed: only the values of a quoted `qop` may have commas, of which the first is made of visible characters; no value
has a quote; a value without quotes is made of visible characters. -/
def Param.WF (p : Param) : Prop :=
  lowerAscii p.written = p.name.text ∧ (∀ c ∈ p.value, c ≠ 44 ∧ c ≠ 34) ∧ (p.quoted = false → ∀ c ∈ p.value, visible c = true) ∧
  (∀ c ∈ p.before ++ p.after, asciiSpace c = true) ∧
  (p.more ≠ [] → p.name = .qop ∧ p.quoted = true ∧ ∀ c ∈ p.value, visible c = true) ∧ (∀ m ∈ p.more, ∀ c ∈ m, c ≠ 44 ∧ c ≠ 34 ∧ c ≠ 61)

/-- Parameters separated by commas. -/
def paramsText : List Param → Bytes
  | [] => []
  | [p] => p.text
  | p :: ps => p.text ++ 44 :: paramsText ps

/-- The value of the last parameter of that name. -/
def lastValue (n : PName) : List Param → Option Bytes
  | [] => none
  | p :: ps => (lastValue n ps).or (if p.name = n then some p.value else none)

/-! ## Responses, for any hash function `H` to hexadecimal text -/

/-- Texts separated by colons. -/
def colons (first : Bytes) : List Bytes → Bytes
  | [] => first
  | m :: ms => first ++ 58 :: colons m ms

/-- H(A1), RFC 2617 3.2.2.2. -/
def hashA1 (H : Bytes → Bytes) (sess : Bool) (user realm password nonce cnonce : Bytes) : Bytes :=
  if sess then H (colons (H (colons user [realm, password])) [nonce, cnonce]) else H (colons user [realm, password])

/-- H(A2), RFC 2617 3.2.2.3. -/
def hashA2 (H : Bytes → Bytes) (qop method uri body : Bytes) : Bytes :=
  if qop = b!"auth-int" then H (colons method [uri, H body]) else H (colons method [uri])

/-- The request digest, RFC 2617 3.2.2.1; an empty `qop` means that the challenge has none. -/
def requestDigest (H : Bytes → Bytes) (sess : Bool) (user realm password nonce nc cnonce qop method uri body : Bytes) : Bytes :=
  if qop = [] then H (colons (hashA1 H sess user realm password nonce cnonce) [nonce, hashA2 H qop method uri body])
  else H (colons (hashA1 H sess user realm password nonce cnonce) [nonce, nc, cnonce, qop, hashA2 H qop method uri body])

/-- `name="value"` -/
def quotedParam (name value : Bytes) : Bytes := name ++ b!"=\"" ++ value ++ b!"\""

/-- Texts separated by a comma and a space. -/
def commaSpace : List Bytes → Bytes
  | [] => []
  | [a] => a
  | a :: t => a ++ b!", " ++ commaSpace t

/-- The Authorization header, RFC 2617 3.2.2. -/
def authorization (user realm nonce uri algorithm opq qop nc cnonce response : Bytes) : Bytes :=
  b!"Digest " ++ commaSpace ([quotedParam b!"username" user, quotedParam b!"realm" realm, quotedParam b!"nonce" nonce,
      quotedParam b!"uri" uri, quotedParam b!"algorithm" algorithm] ++
    (if opq = [] then [] else [quotedParam b!"opaque" opq]) ++
    (if qop = [] then [] else [quotedParam b!"qop" qop, b!"nc=" ++ nc, quotedParam b!"cnonce" cnonce]) ++
    [quotedParam b!"response" response])

/-- The number a text of hexadecimal digits stands for. -/
def hexNumber (s : Bytes) : Nat := s.foldl (fun n c => n * 16 + (hexVal c).getD 0) 0

end Ouro.Spec
