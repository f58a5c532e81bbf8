/-!
# The fragment of Go semantics the model needs: panics, indexing, slicing, big-endian integers

Nothing here models code of /repo; it models the Go language and `encoding/binary`.
-/
namespace Ouro

/-- Run-time panics. `fuel` is produced only when a loop exceeds the iteration bound used to define it; the
theorems that exclude panics therefore also exclude non-termination. -/
inductive Panic
  | index      -- index out of range
  | slice      -- slice bounds out of range
  | nilDeref   -- nil pointer dereference
  | divZero    -- integer division by zero
  | fuel       -- loop bound exceeded (never reached by a Go loop that terminates)
  deriving DecidableEq, Repr

deriving instance DecidableEq for Except

/-- A Go computation: a value or a panic. -/
abbrev Go := Except Panic

/-- The computation panics. -/
def Panics {α : Type} (x : Go α) : Prop := ∃ p, x = .error p

abbrev Bytes := List UInt8

/-- Byte string literal `b!"..."`, expanded to the explicit list of its UTF-8 bytes. -/
syntax:max "b!" str : term
macro_rules
  | `(b! $s:str) => do
    let elems := s.getString.toUTF8.toList.map fun b => Lean.Syntax.mkNumLit (toString b.toNat)
    `(([$(elems.toArray),*] : List UInt8))

/-- `buf[i]` -/
def idx {α : Type} (buf : List α) (i : Nat) : Go α :=
  match buf[i]? with
  | some b => .ok b
  | none => .error .index

/-- `a && b`, evaluated left to right. -/
def andGo (a : Go Bool) (b : Unit → Go Bool) : Go Bool :=
  match a with
  | .error p => .error p
  | .ok false => .ok false
  | .ok true => b ()

/-- A test of `buf[i]`. -/
def testAt {α : Type} (buf : List α) (i : Nat) (f : α → Bool) : Go Bool :=
  match idx buf i with
  | .error p => .error p
  | .ok b => .ok (f b)

/-- `buf[lo:]` -/
def sliceFrom {α : Type} (buf : List α) (lo : Nat) : Go (List α) :=
  if lo ≤ buf.length then .ok (buf.drop lo) else .error .slice

/-- `buf[lo:hi]`. Go compares `hi` with the capacity, the model with the length; every use in the code is either
guarded by a length check or followed by an access that panics whenever `hi` exceeds the length (see the uses). -/
def slice {α : Type} (buf : List α) (lo hi : Nat) : Go (List α) :=
  if lo ≤ hi ∧ hi ≤ buf.length then .ok ((buf.take hi).drop lo) else .error .slice

/-- `binary.BigEndian.Uint16(buf)`: panics if the slice is too short. -/
def beU16 : Bytes → Go Nat
  | a :: b :: _ => .ok (a.toNat * 256 + b.toNat)
  | _ => .error .index

/-- `binary.BigEndian.Uint32(buf)` -/
def beU32 : Bytes → Go Nat
  | a :: b :: c :: d :: _ => .ok (((a.toNat * 256 + b.toNat) * 256 + c.toNat) * 256 + d.toNat)
  | _ => .error .index

/-- `binary.BigEndian.Uint64(buf)` -/
def beU64 : Bytes → Go Nat
  | a :: b :: c :: d :: e :: f :: g :: h :: _ =>
    .ok (((((((a.toNat * 256 + b.toNat) * 256 + c.toNat) * 256 + d.toNat) * 256 + e.toNat) * 256
      + f.toNat) * 256 + g.toNat) * 256 + h.toNat)
  | _ => .error .index

/-- Wrap to `uint16`. -/
def u16 (n : Nat) : Nat := n % 65536
/-- Wrap to `uint32`. -/
def u32 (n : Nat) : Nat := n % 4294967296
/-- Wrap to `int32` (two's complement). -/
def i32 (n : Int) : Int := (n + 2147483648) % 4294967296 - 2147483648
/-- Wrap to `int64` / `int` (two's complement). -/
def i64 (n : Int) : Int := (n + 9223372036854775808) % 18446744073709551616 - 9223372036854775808

end Ouro
