/-!
# Specification: byte stream format and emulation prevention (ITU-T H.264 7.3.1, 7.4.1, Annex B)

Independent of the model.
-/
namespace Ouro.Spec

/-- Removal of emulation prevention bytes: a byte `03` that follows two (or more) zero bytes is dropped. `z` counts the
zero bytes directly before the current position; it restarts after a dropped byte. -/
def unescape : (z : Nat) → List UInt8 → List UInt8
  | _, [] => []
  | z, b :: bs =>
    if 2 ≤ z ∧ b = 3 then unescape 0 bs
    else b :: unescape (if b = 0 then z + 1 else 0) bs

/-- The maximal runs of zero bytes of a byte string, each with the byte that ends it (`none` at the end of the string);
between two adjacent non-zero bytes there is a run of length 0. `k` zeros have been seen already. -/
def zeroRuns : (k : Nat) → List UInt8 → List (Nat × Option UInt8)
  | k, [] => [(k, none)]
  | k, b :: bs => if b = 0 then zeroRuns (k + 1) bs else (k, some b) :: zeroRuns 0 bs

/-- The string contains `00 00 00`, `00 00 01` or `00 00 02`, which must not occur inside a NAL unit. -/
def HasForbidden (l : List UInt8) : Prop := [0, 0, 0] <:+: l ∨ [0, 0, 1] <:+: l ∨ [0, 0, 2] <:+: l

/-- One framed NAL unit: a 4-byte (`long = true`) or 3-byte start code, then the unit. -/
def frame (long : Bool) (unit : List UInt8) : List UInt8 :=
  (if long then [0, 0, 0, 1] else [0, 0, 1]) ++ unit

/-- A byte stream of framed units. -/
def byteStream (us : List (Bool × List UInt8)) : List UInt8 := us.flatMap fun u => frame u.1 u.2

/-- What may be framed: not empty, no start code inside, not ending in a zero byte. -/
def Frameable (u : List UInt8) : Prop :=
  u ≠ [] ∧ ¬ [0, 0, 0] <:+: u ∧ ¬ [0, 0, 1] <:+: u ∧ u.getLast? ≠ some 0

/-- One trailing zero byte removed, if there is one. -/
def dropZero (l : List UInt8) : List UInt8 := if l.getLast? = some 0 then l.dropLast else l

/-- Byte-by-byte reading of a byte stream: `cur` is what was collected since the last start code. At `00 00 01`
followed by at least one more byte the collected piece ends (a zero byte before it belongs to the start code; an empty
piece is not kept) and a new one begins; the last piece is always kept. -/
def pieces : (cur : List UInt8) → List UInt8 → List (List UInt8)
  | cur, 0 :: 0 :: 1 :: b :: rest =>
    (if dropZero cur = [] then [] else [dropZero cur]) ++ pieces [] (b :: rest)
  | cur, b :: rest => pieces (cur ++ [b]) rest
  | cur, [] => [cur]
termination_by _ l => l.length

end Ouro.Spec
