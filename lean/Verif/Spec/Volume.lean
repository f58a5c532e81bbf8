import Verif.Spec.Depacketize
/-! # Specification: how much is reported -/
namespace Ouro.Spec

/-- How many bytes of data the units have. -/
def volume (us : List (UInt8 × Nat × List UInt8)) : Nat := (us.map (·.2.2.length)).sum

/-- Whether a packet is a fragment, and then whether it starts and whether it ends a unit. -/
def Load.flags : Load → Option (Bool × Bool)
  | .fuA _ start last _ => some (start, last)
  | .fuB _ start last _ _ => some (start, last)
  | _ => none

/-- Each unit in fragments that ends has a start of its own: `begun` says that one has started and not ended. -/
def Paired (begun : Bool) : List Load → Prop
  | [] => True
  | l :: ls =>
    match l.flags with
    | none => Paired begun ls
    | some (start, last) => (last = true → start = true ∨ begun = true) ∧ Paired (!last && (start || begun)) ls

end Ouro.Spec
