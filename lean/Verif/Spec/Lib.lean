import Verif.Go.Url
/-! # What the Go documentation says about library functions -/
namespace Ouro.Spec

/-- A nonempty text of numeral digits. -/
def Digits (ds : Bytes) : Prop := ds ≠ [] ∧ ∀ c ∈ ds, 48 ≤ c ∧ c ≤ 57

/-- Its value. -/
def numeral (ds : Bytes) : Nat := ds.foldl (fun n c => 10 * n + (c.toNat - 48)) 0

/-- The nearest `int64`. -/
def nearest (i : Int) : Int := max (-9223372036854775808) (min 9223372036854775807 i)

/-- The UTF-8 encoding of a rune below U+10000. -/
def utf8 (r : Nat) : Bytes :=
  if r < 128 then [UInt8.ofNat r]
  else if r < 2048 then [UInt8.ofNat (192 + r / 64), UInt8.ofNat (128 + r % 64)]
  else [UInt8.ofNat (224 + r / 4096), UInt8.ofNat (128 + r / 64 % 64), UInt8.ofNat (128 + r % 64)]

/-- The runes with the Unicode property White_Space. -/
def whiteSpace : List Nat :=
  [0x09, 0x0A, 0x0B, 0x0C, 0x0D, 0x20, 0x85, 0xA0, 0x1680, 0x2000, 0x2001, 0x2002, 0x2003, 0x2004, 0x2005, 0x2006, 0x2007, 0x2008, 0x2009, 0x200A,
    0x2028, 0x2029, 0x202F, 0x205F, 0x3000]

/-- A text of white space. -/
inductive Blank : Bytes → Prop
  | nil : Blank []
  | cons {r : Nat} {s : Bytes} (hr : r ∈ whiteSpace) (hs : Blank s) : Blank (utf8 r ++ s)

/-- The pieces with the separator between them. -/
def joined (sep : Bytes) : List Bytes → Bytes
  | [] => []
  | [a] => a
  | a :: l => a ++ sep ++ joined sep l

/-- One step of `path.Clean` on the elements of a path, as its documentation lists them: drop an empty element (rule 1, slashes in a row), drop a `.` (rule 2), drop an inner `..` with the element before it (rule 3), drop a `..` that begins a rooted path (rule 4). -/
inductive CleanStep (rooted : Bool) : List Bytes → List Bytes → Prop
  | empty (l r : List Bytes) : CleanStep rooted (l ++ [] :: r) (l ++ r)
  | dot (l r : List Bytes) : CleanStep rooted (l ++ b!"." :: r) (l ++ r)
  | up (l r : List Bytes) (x : Bytes) : x ≠ [] → x ≠ b!"." → x ≠ b!".." → CleanStep rooted (l ++ x :: b!".." :: r) (l ++ r)
  | root (r : List Bytes) : rooted = true → CleanStep rooted (b!".." :: r) r

/-- Any number of these steps. -/
inductive CleanSteps (rooted : Bool) : List Bytes → List Bytes → Prop
  | refl (l : List Bytes) : CleanSteps rooted l l
  | step {l m r : List Bytes} : CleanStep rooted l m → CleanSteps rooted m r → CleanSteps rooted l r

/-- `host:port` as `net.SplitHostPort` reads it: a host with a colon is in brackets, and there are no other brackets. -/
def HostPort (s : Bytes) : Prop :=
  ∃ host port, 58 ∉ port ∧ 91 ∉ port ∧ 93 ∉ port ∧ 91 ∉ host ∧ 93 ∉ host ∧ ((58 ∉ host ∧ s = host ++ 58 :: port) ∨ s = 91 :: host ++ 93 :: 58 :: port)

/-- The bytes of a path that need not be escaped. -/
def pathPlain : Bytes := b!"abcdefghijklmnopqrstuvwxyzABCDEFGHIJKLMNOPQRSTUVWXYZ0123456789-_.~$&+,/:;=@"

end Ouro.Spec
