import Verif.Go.Strings
/-! # Model of net/rtsp/digest.go

The hash function (`md5`) is a parameter of the model: a function from bytes to bytes about which nothing is assumed.
`crypto/rand` is a parameter too: the bytes it delivers. -/
namespace Ouro

/-- digest.go:13-18: the errors. -/
inductive AuthErr | malformed | notImplemented
  deriving DecidableEq, Repr

/-- digest.go:24-40 `Digest`. -/
structure Digest where
  basic : Bool := false
  username : Bytes := []
  realm : Bytes := []
  domain : Bytes := []
  nonce : Bytes := []
  opaque_ : Bytes := []
  stale : Bytes := []
  algorithm : Bytes := []
  cnonce : Bytes := []
  qop : Bytes := []
  uri : Bytes := []
  ha1 : Bytes := []
  ha2 : Bytes := []
  nc : Bytes := []
  count : Nat := 0
  deriving DecidableEq, Repr

/-- digest.go:67-87: the switch on the lower-case parameter name. `strings.Split` never returns an empty list, so
`len(vals) > 0` always holds. -/
def digestAttr (d : Digest) (attr val : Bytes) : Except AuthErr Digest :=
  if attr = b!"realm" then .ok { d with realm := val }
  else if attr = b!"domain" then .ok { d with domain := val }
  else if attr = b!"nonce" then .ok { d with nonce := val }
  else if attr = b!"opaque" then .ok { d with opaque_ := val }
  else if attr = b!"stale" then .ok { d with stale := val }
  else if attr = b!"algorithm" then .ok { d with algorithm := toLower val }
  else if attr = b!"qop" then
    match split 44 val with
    | v :: _ => .ok { d with qop := toLower v }
    | [] => .ok d
  else .error .malformed

/-- digest.go:58-88: one part of the challenge. -/
def digestPart (d : Digest) (part : Bytes) : Except AuthErr Digest :=
  let attr := trimSpace part
  if attr.length = 0 then .ok d
  else match cut 61 attr with
    | some (key, val) => if key.length > 0 then digestAttr d (toLower key) (trimQuotes val) else .ok d
    | none => .ok d

/-- The loop over the parts, digest.go:57-89. -/
def digestParts (d : Digest) : List Bytes → Except AuthErr Digest
  | [] => .ok d
  | p :: ps => match digestPart d p with
    | .ok d => digestParts d ps
    | .error e => .error e

/-- digest.go:47-55: the scheme and the rest of the challenge. -/
def digestScheme (challenge : Bytes) : Option (Bool × Bytes) :=
  if (b!"Digest ").isPrefixOf challenge then some (false, challenge.drop 7)
  else if (b!"Basic ").isPrefixOf challenge then some (true, challenge.drop 6)
  else none

/-- digest.go:43-96 `NewDigest`. -/
def newDigest (uri challenge : Bytes) : Except AuthErr Digest :=
  match digestScheme (trimSpace challenge) with
  | none => .error .malformed
  | some (basic, rest) =>
    match digestParts { uri := uri, algorithm := b!"md5", basic := basic } (split 44 rest) with
    | .error e => .error e
    | .ok d =>
      if d.nonce ≠ [] then
        if d.algorithm ≠ b!"md5" ∧ d.algorithm ≠ b!"md5-sess" then .error .notImplemented else .ok d
      else .ok d

/-- `copy(b[bp:], s)`, digest.go:189: the new contents of `b` and the number of bytes copied. -/
def copyAt (b : Bytes) (bp : Nat) (s : Bytes) : Go (Bytes × Nat) :=
  if bp ≤ b.length then
    let m := min (b.length - bp) s.length
    .ok (b.take bp ++ s.take m ++ b.drop (bp + m), m)
  else .error .slice

/-- `b[i] = x` -/
def putByte (b : Bytes) (i : Nat) (x : UInt8) : Go Bytes := if i < b.length then .ok (b.set i x) else .error .index

/-- The loop of `colonnade`, digest.go:186-190. -/
def colonnadeLoop (b : Bytes) (bp : Nat) : List Bytes → Go Bytes
  | [] => pure b
  | s :: ss => do
    let b ← putByte b bp 58
    let (b, m) ← copyAt b (bp + 1) s
    colonnadeLoop b (bp + 1 + m) ss

/-- digest.go:178-192 `colonnade`; it is never called without parameters. -/
def colonnade (p : Bytes) (ps : List Bytes) : Go Bytes := do
  let n := ps.length + ((p :: ps).map List.length).sum
  let (b, bp) ← copyAt (List.replicate n 0) 0 p
  colonnadeLoop b bp ps

/-- digest.go:172-176 `md5hex`. -/
def md5hex (md5 : Bytes → Bytes) (data : Bytes) : Bytes := hexEncode (md5 data)

/-- Hexadecimal digits; `fuel` bounds their number. -/
def hexDigitsLoop : Nat → Nat → Bytes
  | 0, n => [hexDigit (n % 16)]
  | fuel + 1, n => if n < 16 then [hexDigit n] else hexDigitsLoop fuel (n / 16) ++ [hexDigit (n % 16)]

/-- `fmt.Sprintf("%08x", n)`, digest.go:139 -/
def fmtHex8 (n : Nat) : Bytes :=
  let s := hexDigitsLoop n n
  List.replicate (8 - s.length) 48 ++ s

/-- digest.go:134-143 `Next`; `rnd` are the eight bytes from `rand.Read`. -/
def digestNext (rnd : Bytes) (d : Digest) : Digest :=
  if d.qop = [] then d
  else { d with count := d.count + 1, nc := fmtHex8 (d.count + 1), cnonce := (hexEncode rnd).take 8 }

/-- The function `Authenticate` returns: a constant, or a prefix to which the response is appended. -/
inductive AuthFunc
  | basic (auth : Bytes)
  | digest (auth : Bytes)
  deriving DecidableEq, Repr

/-- digest.go:99-131 `Authenticate`: the function returned, and the changed digest, which the function shares. -/
def authenticate (md5 : Bytes → Bytes) (rnd : Bytes) (d : Digest) (username password : Bytes) : Go (AuthFunc × Digest) :=
  if d.basic then do
    let c ← colonnade username [password]
    pure (.basic (b!"Basic " ++ b64Encode c), d)
  else do
    let c ← colonnade username [d.realm, password]
    let d := { d with username := username, ha1 := md5hex md5 c }
    let auth := b!"Digest username=\"" ++ d.username ++ b!"\", realm=\"" ++ d.realm ++ b!"\", nonce=\"" ++ d.nonce ++
      b!"\", uri=\"" ++ d.uri ++ b!"\", algorithm=\"" ++ d.algorithm ++
      (if d.opaque_ ≠ [] then b!"\", opaque=\"" ++ d.opaque_ else []) ++ b!"\""
    pure (.digest auth, digestNext rnd d)

/-- digest.go:145-170 `response`. -/
def digestResponse (md5 : Bytes → Bytes) (d : Digest) (verb body : Bytes) : Go (Bytes × Digest) := do
  let c ← (if d.qop = b!"auth-int" then colonnade verb [d.uri, md5hex md5 body] else colonnade verb [d.uri] : Go Bytes)
  let d := { d with ha2 := md5hex md5 c }
  if d.qop = [] then
    let c ← colonnade d.ha1 [d.nonce, d.ha2]
    pure (b!", response=\"" ++ md5hex md5 c ++ b!"\"", d)
  else do
    let d ← (if d.algorithm = b!"md5-sess" then do
        let c ← colonnade d.ha1 [d.nonce, d.cnonce]
        pure { d with ha1 := md5hex md5 c }
      else pure d : Go Digest)
    let c ← colonnade d.ha1 [d.nonce, d.nc, d.cnonce, d.qop, d.ha2]
    pure (b!", qop=\"" ++ d.qop ++ b!"\", nc=" ++ d.nc ++ b!", cnonce=\"" ++ d.cnonce ++ b!"\", response=\"" ++ md5hex md5 c ++ b!"\"", d)

/-- Calling the function `Authenticate` returned (digest.go:105-107, 128-130). -/
def authCall (md5 : Bytes → Bytes) (f : AuthFunc) (d : Digest) (verb body : Bytes) : Go (Bytes × Digest) :=
  match f with
  | .basic auth => pure (auth, d)
  | .digest auth => do
    let (r, d) ← digestResponse md5 d verb body
    pure (auth ++ r, d)

/-- The Authorization values of a sequence of requests (method and body). -/
def authCalls (md5 : Bytes → Bytes) (f : AuthFunc) (d : Digest) : List (Bytes × Bytes) → Go (List Bytes)
  | [] => pure []
  | (verb, body) :: t => do
    let (a, d) ← authCall md5 f d verb body
    let r ← authCalls md5 f d t
    pure (a :: r)

end Ouro
