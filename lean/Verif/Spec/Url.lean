import Verif.Go.Url
/-! # URIs, as RFC 3986 writes them

Independent of the model: only `Bytes` and the reading of a hexadecimal digit are shared with it. -/
namespace Ouro.Spec

/-- RFC 3986, 2.3 `unreserved`. -/
def Unreserved (c : UInt8) : Prop :=
  (97 ≤ c ∧ c ≤ 122) ∨ (65 ≤ c ∧ c ≤ 90) ∨ (48 ≤ c ∧ c ≤ 57) ∨ c = 45 ∨ c = 46 ∨ c = 95 ∨ c = 126

/-- RFC 3986, 2.2 `sub-delims`: `!$&'()*+,;=`. -/
def SubDelim (c : UInt8) : Prop := c ∈ ([33, 36, 38, 39, 40, 41, 42, 43, 44, 59, 61] : Bytes)

/-- The bytes of a path, besides the escapes: those of `pchar`, and the slash. -/
def PathByte (c : UInt8) : Prop := Unreserved c ∨ SubDelim c ∨ c = 58 ∨ c = 64 ∨ c = 47

/-- The bytes of a user name or a password, besides the escapes. -/
def UserByte (c : UInt8) : Prop := Unreserved c ∨ SubDelim c

/-- `s` is text with percent-escapes that stands for `d`; the bytes that are not part of an escape satisfy `ok`. -/
inductive Pct (ok : UInt8 → Prop) : Bytes → Bytes → Prop
  | nil : Pct ok [] []
  | byte {c s d} : ok c → Pct ok s d → Pct ok (c :: s) (c :: d)
  | esc {a b x y s d} : hexVal a = some x → hexVal b = some y → Pct ok s d →
      Pct ok (37 :: a :: b :: s) (UInt8.ofNat (16 * x + y) :: d)

/-- A host: a name or an IPv4 address, or an IPv6 address in brackets. -/
def Host (h : Bytes) : Prop :=
  (h ≠ [] ∧ ∀ c ∈ h, Unreserved c) ∨
    ∃ v : Bytes, h = 91 :: v ++ [93] ∧ ∀ c ∈ v, (hexVal c).isSome ∨ c = 58 ∨ c = 46

/-- A scheme in lower case. -/
def Scheme (s : Bytes) : Prop :=
  ∃ c t, s = c :: t ∧ (97 ≤ c ∧ c ≤ 122) ∧
    ∀ x ∈ t, (97 ≤ x ∧ x ≤ 122) ∨ (48 ≤ x ∧ x ≤ 57) ∨ x = 43 ∨ x = 45 ∨ x = 46

/-- An address as the user writes it. -/
structure Address where
  scheme : Bytes
  /-- user name and, after a colon, the password -/
  user : Option (Bytes × Option Bytes)
  host : Bytes
  port : Option Bytes
  path : Bytes
  query : Option Bytes

/-- `user[:password]@` -/
def userPart : Option (Bytes × Option Bytes) → Bytes
  | none => []
  | some (n, none) => n ++ [64]
  | some (n, some p) => n ++ 58 :: p ++ [64]

/-- `:port` -/
def portPart : Option Bytes → Bytes
  | none => []
  | some p => 58 :: p

/-- `?query` -/
def queryPart : Option Bytes → Bytes
  | none => []
  | some q => 63 :: q

/-- `#fragment` -/
def fragPart : Option Bytes → Bytes
  | none => []
  | some f => 35 :: f

/-- The text of the address. -/
def Address.text (a : Address) : Bytes :=
  a.scheme ++ b!"://" ++ userPart a.user ++ a.host ++ portPart a.port ++ a.path ++ queryPart a.query

/-- What the grammar asks of an address. (In a query anything goes but control bytes and `#`.) -/
structure Address.Valid (a : Address) : Prop where
  scheme : Scheme a.scheme
  name : ∀ n p, a.user = some (n, p) → ∃ d, Pct UserByte n d
  password : ∀ n p, a.user = some (n, some p) → ∃ d, Pct (fun c => UserByte c ∨ c = 58) p d
  host : Host a.host
  port : ∀ p, a.port = some p → p ≠ [] ∧ ∀ c ∈ p, 48 ≤ c ∧ c ≤ 57
  path : a.path = [] ∨ a.path.head? = some 47
  pathText : ∃ d, Pct PathByte a.path d
  query : ∀ q, a.query = some q → ∀ c ∈ q, 32 ≤ c ∧ c ≠ 127 ∧ c ≠ 35

/-- The same, but the port may be left empty after its colon, which RFC 3986 (3.2.3) allows. -/
structure Address.Written (a : Address) : Prop where
  scheme : Scheme a.scheme
  name : ∀ n p, a.user = some (n, p) → ∃ d, Pct UserByte n d
  password : ∀ n p, a.user = some (n, some p) → ∃ d, Pct (fun c => UserByte c ∨ c = 58) p d
  host : Host a.host
  port : ∀ p, a.port = some p → ∀ c ∈ p, 48 ≤ c ∧ c ≤ 57
  path : a.path = [] ∨ a.path.head? = some 47
  pathText : ∃ d, Pct PathByte a.path d
  query : ∀ q, a.query = some q → ∀ c ∈ q, 32 ≤ c ∧ c ≠ 127 ∧ c ≠ 35

theorem Address.Valid.written {a : Address} (h : a.Valid) : a.Written :=
  ⟨h.scheme, h.name, h.password, h.host, fun p e => (h.port p e).2, h.path, h.pathText, h.query⟩

/-- The bytes of a fragment, besides the escapes. -/
def FragmentByte (c : UInt8) : Prop := PathByte c ∨ c = 63

/-- The host and the port to connect to; 554 is the port of RTSP. -/
def Address.target (a : Address) : Bytes := a.host ++ 58 :: a.port.getD b!"554"

/-- The address that may be sent to the server: no credentials, the port spelled out. -/
def Address.public (a : Address) : Bytes := a.scheme ++ b!"://" ++ a.target ++ a.path ++ queryPart a.query

/-- The credentials `u` are those the address gives. -/
def Address.Credentials (a : Address) (u : Option (Bytes × Bytes)) : Prop :=
  match a.user, u with
  | none, none => True
  | some (n, none), some (n', p') => Pct UserByte n n' ∧ p' = []
  | some (n, some p), some (n', p') => Pct UserByte n n' ∧ Pct (fun c => UserByte c ∨ c = 58) p p'
  | _, _ => False

/-- The name of a file or directory. -/
def FileName (n : Bytes) : Prop := n ≠ [] ∧ n ≠ b!"." ∧ n ≠ b!".." ∧ (47 : UInt8) ∉ n

/-- The path `/a/b/c`. -/
def dirText (dirs : List Bytes) : Bytes := dirs.flatMap fun d => 47 :: d

/-- The address of a file in a directory served at `a`: the path is `p`. -/
def Address.withPath (a : Address) (p : Bytes) : Bytes :=
  a.scheme ++ b!"://" ++ (a.host ++ portPart a.port) ++ p ++ queryPart a.query

end Ouro.Spec
