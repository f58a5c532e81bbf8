/-!
# Specification: RTP payload format for H.264 (RFC 6184, sections 1.3, 5.3–5.8)

Independent of the model.
-/
namespace Ouro.Spec

/-- Big-endian 16-bit number. -/
def be16 (n : Nat) : List UInt8 := [UInt8.ofNat (n / 256), UInt8.ofNat n]
/-- Big-endian 24-bit number. -/
def be24 (n : Nat) : List UInt8 := [UInt8.ofNat (n / 65536), UInt8.ofNat (n / 256), UInt8.ofNat n]

/-- A NAL unit: header byte and the rest. -/
structure Nal where
  header : UInt8
  data : List UInt8
  deriving DecidableEq, Repr

/-- `size` of an aggregated unit: header byte included. -/
def Nal.size (u : Nal) : Nat := u.data.length + 1
def Nal.bytes (u : Nal) : List UInt8 := u.header :: u.data

/-- Single-time aggregation unit (section 5.7.1): 16-bit size, then the unit. -/
def stapUnit (u : Nal) : List UInt8 := be16 u.size ++ u.bytes

/-- An aggregation packet header byte of the given type with arbitrary F and NRI bits `f`. -/
def typeByte (f : UInt8) (type : UInt8) : UInt8 := (f &&& 0xE0) ||| type

/-- STAP-A: type 24. -/
def stapA (f : UInt8) (us : List Nal) : List UInt8 := typeByte f 24 :: us.flatMap stapUnit
/-- STAP-B: type 25, 16-bit DON of the first unit. -/
def stapB (f : UInt8) (don : Nat) (us : List Nal) : List UInt8 := typeByte f 25 :: (be16 don ++ us.flatMap stapUnit)

/-- A unit of a multi-time aggregation packet: DON difference and timestamp offset. -/
structure MtapNal where
  nal : Nal
  dond : UInt8
  tsOff : Nat
  deriving DecidableEq, Repr

def mtap16Unit (u : MtapNal) : List UInt8 := be16 u.nal.size ++ u.dond :: be16 u.tsOff ++ u.nal.bytes
def mtap24Unit (u : MtapNal) : List UInt8 := be16 u.nal.size ++ u.dond :: be24 u.tsOff ++ u.nal.bytes

/-- MTAP16: type 26, MTAP24: type 27, both with the 16-bit DONB. -/
def mtap16 (f : UInt8) (donb : Nat) (us : List MtapNal) : List UInt8 :=
  typeByte f 26 :: (be16 donb ++ us.flatMap mtap16Unit)
def mtap24 (f : UInt8) (donb : Nat) (us : List MtapNal) : List UInt8 :=
  typeByte f 27 :: (be16 donb ++ us.flatMap mtap24Unit)

/-- FU header (section 5.8): S, E, R=0, type of the fragmented unit. -/
def fuHeader (start last : Bool) (header : UInt8) : UInt8 :=
  (if start then 0x80 else 0) ||| (if last then 0x40 else 0) ||| (header &&& 0x1F)

/-- FU-A fragment carrying `piece` of a unit with header `header`: type 28. -/
def fuA (header : UInt8) (start last : Bool) (piece : List UInt8) : List UInt8 :=
  typeByte header 28 :: fuHeader start last header :: piece
/-- FU-B fragment: type 29, with a DON. -/
def fuB (header : UInt8) (start last : Bool) (don : Nat) (piece : List UInt8) : List UInt8 :=
  typeByte header 29 :: fuHeader start last header :: (be16 don ++ piece)

/-- RFC 6184 section 5.5: `don_diff(m, n)`, five cases. -/
def rfcDonDiff (m n : Nat) : Int :=
  if m = n then 0
  else if m < n ∧ n - m < 32768 then (n : Int) - m
  else if m > n ∧ m - n ≥ 32768 then 65536 - (m : Int) + n
  else if m < n ∧ n - m ≥ 32768 then -((m : Int) + 65536 - n)
  else -((m : Int) - n)

end Ouro.Spec
