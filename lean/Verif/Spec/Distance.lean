import Verif.Spec.Join
/-! # Specification: decoding order numbers for a receiver that joins late -/
namespace Ouro.Spec

/-- A packet that carries a decoding order number: STAP-B, MTAP or FU-B. -/
def carriesNumber (n : Bytes) : Bool :=
  match n with
  | h :: _ => h &&& 0x1F == 25 || h &&& 0x1F == 26 || h &&& 0x1F == 27 || h &&& 0x1F == 29
  | [] => false

/-- There are none in the payload: all numbers come from counting. -/
def NoNumbers (b : Bytes) : Prop := ∀ nals, splitAnnexB b = .ok nals → ∀ n ∈ nals, carriesNumber n = false

/-- The payload is one STAP-B or MTAP packet, at least up to its number. -/
def SetsNumber (b : Bytes) : Prop :=
  ∃ h x y t, splitAnnexB b = .ok [h :: x :: y :: t] ∧ (h &&& 0x1F = 25 ∨ h &&& 0x1F = 26 ∨ h &&& 0x1F = 27)

/-- The decoding order numbers of all units a user gets for payloads, in their order. -/
def numbersOf (s : NALSink) (ps : List (Bytes × Nat)) : List Nat :=
  (reports s ps).flatMap fun r => match r with
    | .ok (_, us) => us.map (·.don)
    | .error _ => []

/-- The number of the `i`th unit of a stream, for a receiver that has taken `hist` before it. -/
def numberAt (hist ps : List (Bytes × Nat)) (i : Nat) : Option Nat :=
  match having newNALSink hist with
  | .ok s => (numbersOf s ps)[i]?
  | .error _ => none

/-- The number of the `i`th unit is the same for all receivers. -/
def JoinFree (ps : List (Bytes × Nat)) (i : Nat) : Prop :=
  ∀ hist hist' n n', numberAt hist ps i = some n → numberAt hist' ps i = some n' → n = n'

/-- So is the distance of the `i`th and the `j`th. -/
def DistanceFree (ps : List (Bytes × Nat)) (i j : Nat) : Prop :=
  ∀ hist hist' a b a' b', numberAt hist ps i = some a → numberAt hist ps j = some b → numberAt hist' ps i = some a' → numberAt hist' ps j = some b' →
    donDiff a b = donDiff a' b'

/-- They are half of the range apart, for a receiver from the start of the stream. -/
def HalfApart (ps : List (Bytes × Nat)) (i j : Nat) : Prop :=
  ∃ a b, numberAt [] ps i = some a ∧ numberAt [] ps j = some b ∧ (b + 65536 - a) % 65536 = 32768

end Ouro.Spec
