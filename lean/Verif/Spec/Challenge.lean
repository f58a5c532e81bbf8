import Verif.Spec.Digest
import Verif.Spec.Message
import Verif.Model.Digest
/-! # Specification: the whole grammar of challenges (RFC 2617 section 1.2, RFC 7235 section 2.1) -/
namespace Ouro.Spec

/-- In a quoted string a quote and a backslash are written with a backslash before them. -/
def escapeQuoted (v : Bytes) : Bytes := v.flatMap fun c => if c = 34 ∨ c = 92 then [92, c] else [c]

/-- A parameter of any name: `name=token` or `name="text"`, with white space around it and around the equals sign. `more` are further values of a
list (`qop="auth,auth-int"`). -/
structure AuthParam where
  name : Bytes
  value : Bytes
  more : List Bytes := []
  quoted : Bool
  before : Bytes := []
  after : Bytes := []
  eqBefore : Bytes := []
  eqAfter : Bytes := []

def AuthParam.text (p : AuthParam) : Bytes :=
  p.before ++ p.name ++ p.eqBefore ++ [61] ++ p.eqAfter ++ (if p.quoted then [34] ++ escapeQuoted (commas p.value p.more) ++ [34] else p.value) ++ p.after

/-- What the grammar says: the name is a token, and so is a value without quotes; any text can be a quoted value; `algorithm` is a token and `qop`
is a list of tokens. -/
structure AuthParam.WF (p : AuthParam) : Prop where
  name : p.name ≠ [] ∧ ∀ c ∈ p.name, c ∈ tokenChars
  space : ∀ c ∈ p.before ++ p.after ++ p.eqBefore ++ p.eqAfter, c = 32 ∨ c = 9
  token : p.quoted = false → p.value ≠ [] ∧ (∀ c ∈ p.value, c ∈ tokenChars) ∧ p.more = []
  list : p.more ≠ [] → lowerAscii p.name = b!"qop"
  tokens : lowerAscii p.name = b!"qop" ∨ lowerAscii p.name = b!"algorithm" → ∀ c ∈ p.value, c ∈ tokenChars
  more : ∀ m ∈ p.more, ∀ c ∈ m, c ∈ tokenChars ∨ c = 32 ∨ c = 9

/-- Parameters separated by commas. -/
def authText : List AuthParam → Bytes
  | [] => []
  | [p] => p.text
  | p :: ps => p.text ++ 44 :: authText ps

/-- The value of the parameter of that name. -/
def valueOf (n : PName) (ps : List AuthParam) : Option Bytes := (ps.find? fun p => lowerAscii p.name = n.text).map (·.value)

/-- The challenge is understood: each parameter has the value the server gave it; md5 is the algorithm if none is given; the first of several ways of
protection is taken. -/
structure Understood (uri : Bytes) (basic : Bool) (ps : List AuthParam) (d : Digest) : Prop where
  uri : d.uri = uri
  basic : d.basic = basic
  realm : d.realm = (valueOf .realm ps).getD []
  domain : d.domain = (valueOf .domain ps).getD []
  nonce : d.nonce = (valueOf .nonce ps).getD []
  opaque_ : d.opaque_ = (valueOf .opaque_ ps).getD []
  stale : d.stale = (valueOf .stale ps).getD []
  algorithm : d.algorithm = ((valueOf .algorithm ps).map toLower).getD b!"md5"
  qop : d.qop = ((valueOf .qop ps).map toLower).getD []

/-- A parameter the code can read: of a name it knows, without white space around the equals sign, and without a comma, a quote or a backslash in
the value. -/
def AuthParam.Simple (p : AuthParam) : Prop :=
  (∃ n : PName, lowerAscii p.name = n.text) ∧ p.eqBefore = [] ∧ p.eqAfter = [] ∧ (44 : UInt8) ∉ p.value ∧ (34 : UInt8) ∉ p.value ∧ (92 : UInt8) ∉ p.value

end Ouro.Spec
