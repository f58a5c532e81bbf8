import Verif.Spec.AnnexB
import Verif.Spec.Rtp6184
/-!
# Specification: NAL units as H.264 allows them (ITU-T H.264 7.3.1, 7.4.1)

Independent of the model.
-/
namespace Ouro.Spec

/-- The bytes of a NAL unit: a type other than 0, none of `00 00 00`, `00 00 01`, `00 00 02` inside, and the last byte is
not zero. -/
def Legal (u : Nal) : Prop := u.header &&& 0x1F ≠ 0 ∧ ¬ HasForbidden u.bytes ∧ u.bytes.getLast? ≠ some 0

/-- The unit holds an emulation prevention byte: `00 00 03`. -/
def Escaped (b : List UInt8) : Prop := [0, 0, 3] <:+: b

/-- Zero bytes that end the header of a fragmentation unit: its DON, if it has one. -/
def zerosBefore : (don : Option Nat) → Nat
  | none => 0
  | some d => if d % 256 ≠ 0 then 0 else if d / 256 % 256 ≠ 0 then 1 else 2

instance (u : Nal) : Decidable (Legal u) := by unfold Legal HasForbidden; infer_instance
instance (b : List UInt8) : Decidable (Escaped b) := by unfold Escaped; infer_instance

end Ouro.Spec
