import Verif.Go.Basic
/-!
# Go standard library functions on strings

`strings`, `strconv`, `encoding/hex` and `encoding/base64` as the code uses them. A Go `string` is a list of bytes. Nothing
here models code of /repo.
-/
namespace Ouro

/-- `strings.Split(s, sep)` for a one-byte separator. -/
def split (c : UInt8) : Bytes → List Bytes
  | [] => [[]]
  | x :: xs =>
    if x = c then [] :: split c xs
    else match split c xs with
      | [] => [[x]]
      | y :: ys => (x :: y) :: ys

/-- The text before and after the first `c`, if there is one. -/
def cut (c : UInt8) : Bytes → Option (Bytes × Bytes)
  | [] => none
  | x :: xs =>
    if x = c then some ([], xs)
    else match cut c xs with
      | none => none
      | some (a, b) => some (x :: a, b)

/-- `strings.SplitN(s, sep, 2)` for a one-byte separator. -/
def splitN2 (c : UInt8) (s : Bytes) : List Bytes :=
  match cut c s with
  | none => [s]
  | some (a, b) => [a, b]

/-- `strings.Split(s, ", ")`: `a` is the first byte of the separator, `b` the second. -/
def split2 (a b : UInt8) : Bytes → List Bytes
  | [] => [[]]
  | [x] => [[x]]
  | x :: y :: t =>
    if x = a ∧ y = b then [] :: split2 a b t
    else match split2 a b (y :: t) with
      | [] => [[x]]
      | z :: zs => (x :: z) :: zs

/-- ASCII white space of `unicode.IsSpace`. -/
def asciiSpace (b : UInt8) : Bool := b = 32 || b = 9 || b = 10 || b = 11 || b = 12 || b = 13

/-- Number of bytes of the white space rune (U+0009–U+000D, U+0020, U+0085, U+00A0, U+1680, U+2000–U+200A, U+2028, U+2029,
U+202F, U+205F, U+3000) the string starts with; 0 if it starts with something else. -/
def spaceLen : Bytes → Nat
  | [] => 0
  | [a] => if asciiSpace a then 1 else 0
  | [a, b] => if asciiSpace a then 1 else if a = 0xC2 ∧ (b = 0x85 ∨ b = 0xA0) then 2 else 0
  | a :: b :: c :: _ =>
    if asciiSpace a then 1
    else if a = 0xC2 ∧ (b = 0x85 ∨ b = 0xA0) then 2
    else if (a = 0xE1 ∧ b = 0x9A ∧ c = 0x80) ∨
        (a = 0xE2 ∧ b = 0x80 ∧ ((0x80 ≤ c ∧ c ≤ 0x8A) ∨ c = 0xA8 ∨ c = 0xA9 ∨ c = 0xAF)) ∨
        (a = 0xE2 ∧ b = 0x81 ∧ c = 0x9F) ∨ (a = 0xE3 ∧ b = 0x80 ∧ c = 0x80) then 3
    else 0

/-- The same at the end of the string, which is given reversed. -/
def spaceLenRev : Bytes → Nat
  | [] => 0
  | [a] => if asciiSpace a then 1 else 0
  | [a, b] => if asciiSpace a then 1 else if b = 0xC2 ∧ (a = 0x85 ∨ a = 0xA0) then 2 else 0
  | a :: b :: c :: _ =>
    if asciiSpace a then 1
    else if b = 0xC2 ∧ (a = 0x85 ∨ a = 0xA0) then 2
    else if (c = 0xE1 ∧ b = 0x9A ∧ a = 0x80) ∨
        (c = 0xE2 ∧ b = 0x80 ∧ ((0x80 ≤ a ∧ a ≤ 0x8A) ∨ a = 0xA8 ∨ a = 0xA9 ∨ a = 0xAF)) ∨
        (c = 0xE2 ∧ b = 0x81 ∧ a = 0x9F) ∨ (c = 0xE3 ∧ b = 0x80 ∧ a = 0x80) then 3
    else 0

/-- Drop space runes measured by `len` from the front; `fuel` bounds the number of runes. -/
def dropSpace (len : Bytes → Nat) : Nat → Bytes → Bytes
  | 0, s => s
  | fuel + 1, s => if len s = 0 then s else dropSpace len fuel (s.drop (len s))

/-- `strings.TrimSpace` -/
def trimSpace (s : Bytes) : Bytes :=
  let t := dropSpace spaceLen s.length s
  (dropSpace spaceLenRev t.length t.reverse).reverse

/-- `strings.Trim(s, "\"")` -/
def trimQuotes (s : Bytes) : Bytes := ((s.dropWhile (· = 34)).reverse.dropWhile (· = 34)).reverse

def upper1 (c : UInt8) : UInt8 := if 97 ≤ c ∧ c ≤ 122 then c - 32 else c
def lower1 (c : UInt8) : UInt8 := if 65 ≤ c ∧ c ≤ 90 then c + 32 else c

/-- `strings.ToUpper`. Exact on ASCII strings, and as far as ASCII letters in the result are concerned: dotless i (C4 B1) and
long s (C5 BF) are the only other runes with an ASCII upper case. Simplification: other non-ASCII runes are left
alone. The code only compares the result with ASCII strings, except that it repeats the `qop` and the `algorithm` of a challenge in the
Authorization header: for values with such runes (which no server sends) the text repeated may differ from the model. -/
def toUpper : Bytes → Bytes
  | [] => []
  | [c] => [upper1 c]
  | c :: d :: t =>
    if c = 0xC4 ∧ d = 0xB1 then 73 :: toUpper t
    else if c = 0xC5 ∧ d = 0xBF then 83 :: toUpper t
    else upper1 c :: toUpper (d :: t)

/-- `strings.ToLower`, exact in the same sense: dotted I (C4 B0) and the Kelvin sign (E2 84 AA) are the only non-ASCII runes with
an ASCII lower case. -/
def toLower : Bytes → Bytes
  | [] => []
  | [c] => [lower1 c]
  | [c, d] => if c = 0xC4 ∧ d = 0xB0 then [105] else [lower1 c, lower1 d]
  | c :: d :: e :: t =>
    if c = 0xC4 ∧ d = 0xB0 then 105 :: toLower (e :: t)
    else if c = 0xE2 ∧ d = 0x84 ∧ e = 0xAA then 107 :: toLower t
    else lower1 c :: toLower (d :: e :: t)

/-! ## Numbers -/

def isDigit (c : UInt8) : Bool := 48 ≤ c && c ≤ 57

inductive NumErr
  | syntax
  | range
  deriving DecidableEq, Repr

/-- `strconv.ParseUint(s, 10, 64)` after the empty string has been excluded: digits from left to right; 2^64 is a range error
even if garbage follows. -/
def scanUint : Nat → Bytes → Except NumErr Nat
  | n, [] => .ok n
  | n, c :: cs =>
    if isDigit c then
      if n * 10 + (c.toNat - 48) < 2 ^ 64 then scanUint (n * 10 + (c.toNat - 48)) cs else .error .range
    else .error .syntax

/-- The value and the error of `strconv.Atoi` / `strconv.ParseInt(s, 10, 64)`: 0 on a syntax error, the nearest `int64` on a
range error. -/
def atoiParts (neg : Bool) (ds : Bytes) : Int × Option NumErr :=
  if ds = [] then (0, some .syntax)
  else match scanUint 0 ds with
    | .error .syntax => (0, some .syntax)
    | .error .range => (if neg then -(2 ^ 63) else 2 ^ 63 - 1, some .range)
    | .ok n =>
      if neg then (if n > 2 ^ 63 then (-(2 ^ 63), some .range) else (-n, none))
      else (if n ≥ 2 ^ 63 then (2 ^ 63 - 1, some .range) else (n, none))

/-- `strconv.Atoi` -/
def atoi : Bytes → Int × Option NumErr
  | [] => (0, some .syntax)
  | c :: cs => if c = 43 then atoiParts false cs else if c = 45 then atoiParts true cs else atoiParts false (c :: cs)

/-- Decimal digits; `fuel` bounds their number. -/
def natDigitsLoop : Nat → Nat → Bytes
  | 0, n => [UInt8.ofNat (48 + n % 10)]
  | fuel + 1, n => if n < 10 then [UInt8.ofNat (48 + n)] else natDigitsLoop fuel (n / 10) ++ [UInt8.ofNat (48 + n % 10)]

/-- Decimal digits. -/
def natDigits (n : Nat) : Bytes := natDigitsLoop n n

/-- `strconv.Itoa`, `strconv.FormatInt(i, 10)` -/
def itoa (i : Int) : Bytes := if i < 0 then 45 :: natDigits i.natAbs else natDigits i.natAbs

/-! ## hex -/

def hexDigit (n : Nat) : UInt8 := UInt8.ofNat (if n < 10 then 48 + n else 87 + n)

/-- `hex.EncodeToString` -/
def hexEncode (b : Bytes) : Bytes := b.flatMap fun x => [hexDigit (x.toNat / 16), hexDigit (x.toNat % 16)]

def hexVal (c : UInt8) : Option Nat :=
  if 48 ≤ c ∧ c ≤ 57 then some (c.toNat - 48)
  else if 97 ≤ c ∧ c ≤ 102 then some (c.toNat - 87)
  else if 65 ≤ c ∧ c ≤ 70 then some (c.toNat - 55)
  else none

/-- The bytes `hex.DecodeString` returns (also on error: those decoded before it). -/
def hexDecode : Bytes → Bytes
  | a :: b :: t =>
    match hexVal a, hexVal b with
    | some x, some y => UInt8.ofNat (x * 16 + y) :: hexDecode t
    | _, _ => []
  | _ => []

/-! ## base64 -/

/-- The standard alphabet. -/
def b64char (n : Nat) : UInt8 :=
  UInt8.ofNat (if n < 26 then 65 + n else if n < 52 then 71 + n else if n < 62 then n - 4 else if n = 62 then 43 else 47)

def b64val (c : UInt8) : Option Nat :=
  if 65 ≤ c ∧ c ≤ 90 then some (c.toNat - 65)
  else if 97 ≤ c ∧ c ≤ 122 then some (c.toNat - 71)
  else if 48 ≤ c ∧ c ≤ 57 then some (c.toNat + 4)
  else if c = 43 then some 62
  else if c = 47 then some 63
  else none

/-- `base64.StdEncoding.EncodeToString` -/
def b64Encode : Bytes → Bytes
  | [] => []
  | [a] => [b64char (a.toNat / 4), b64char (a.toNat % 4 * 16), 61, 61]
  | [a, b] => [b64char (a.toNat / 4), b64char (a.toNat % 4 * 16 + b.toNat / 16), b64char (b.toNat % 16 * 4), 61]
  | a :: b :: c :: t =>
    b64char (a.toNat / 4) :: b64char (a.toNat % 4 * 16 + b.toNat / 16) :: b64char (b.toNat % 16 * 4 + c.toNat / 64) ::
      b64char (c.toNat % 64) :: b64Encode t

/-- Line ends, which the decoder skips. -/
def skipNL : Bytes → Bytes
  | [] => []
  | c :: t => if c = 10 ∨ c = 13 then skipNL t else c :: t

/-- The first, first two or all three bytes of a quantum of sextets. -/
def b64Bytes : List Nat → Bytes
  | [a, b] => [UInt8.ofNat (a * 4 + b / 16)]
  | [a, b, c] => [UInt8.ofNat (a * 4 + b / 16), UInt8.ofNat (b % 16 * 16 + c / 4)]
  | [a, b, c, d] => [UInt8.ofNat (a * 4 + b / 16), UInt8.ofNat (b % 16 * 16 + c / 4), UInt8.ofNat (c % 4 * 64 + d)]
  | _ => []

/-- `base64.StdEncoding.DecodeString`: the bytes returned (also on error: those of the complete quanta before it) and whether
there is an error. `acc` are the sextets of the current quantum. -/
def b64Loop (acc : List Nat) : Bytes → Bytes × Bool
  | [] => ([], !acc.isEmpty)
  | c :: cs =>
    match b64val c with
    | some v =>
      if acc.length = 3 then
        let (o, e) := b64Loop [] cs
        (b64Bytes (acc ++ [v]) ++ o, e)
      else b64Loop (acc ++ [v]) cs
    | none =>
      if c = 10 ∨ c = 13 then b64Loop acc cs
      else if c ≠ 61 then ([], true)
      else if acc.length = 2 then
        match skipNL cs with
        | [] => ([], true)
        | d :: t => if d = 61 then (b64Bytes acc, !(skipNL t).isEmpty) else ([], true)
      else if acc.length = 3 then (b64Bytes acc, !(skipNL cs).isEmpty)
      else ([], true)

def b64Decode (s : Bytes) : Bytes × Bool := b64Loop [] s

end Ouro
