import Verif.Spec.Join
/-! # Specification: payloads that arrive twice -/
namespace Ouro.Spec

/-- All units a user gets for payloads, in their order, decoding order numbers aside. -/
def unitsGot (s : NALSink) (ps : List (Bytes × Nat)) : List NALUnit :=
  (reports s ps).flatMap fun r => match r with
    | .ok (_, us) => us.map unnumbered
    | .error _ => []

/-- If a payload arrives twice after `hist`, the user gets the same units as if it had arrived once. -/
def TwiceIsOnce (hist : List (Bytes × Nat)) (p : Bytes × Nat) (later : List (Bytes × Nat)) : Prop :=
  unitsGot newNALSink (hist ++ p :: p :: later) = unitsGot newNALSink (hist ++ p :: later)

end Ouro.Spec
