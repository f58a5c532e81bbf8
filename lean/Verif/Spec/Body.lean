import Verif.Model.Body
/-! # What becomes of the body of a response -/
namespace Ouro.Spec

/-- The program reads on: it receives so many messages (or errors). -/
def readOn : Nat → ARdr → ARdr
  | 0, a => a
  | n + 1, a => readOn n (recvM arrayMethods a).2

/-- What a part of the array of the reader shows now. -/
def shows (a : ARdr) (place : Nat × Nat) : Bytes := (a.arr.drop place.1).take place.2

end Ouro.Spec
