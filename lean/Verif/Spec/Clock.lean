import Verif.Spec.Main
import Verif.Model.Clock
/-! # Specification: the client in time -/
namespace Ouro.Spec

/-- Times that do not go back, from `t` on. -/
def Forward : Nat → List (Nat × CEv) → Prop
  | _, [] => True
  | t, (u, _) :: es => t ≤ u ∧ Forward u es

/-- The client after any schedule in time, with any connection. -/
def TimedReachable (w : World) (x : Timed) : Prop :=
  ∃ t uri user rdr n x0 es, topen w t uri user rdr n = .ok x0 ∧ Forward t es ∧ tsteps w x0 es = .ok x

/-- The last stage of which the client was told, and when. -/
def lastTold : List (Nat × Act) → Option (Nat × Nat)
  | [] => none
  | (t, .stage k) :: _ => some (t, k)
  | _ :: older => lastTold older

end Ouro.Spec
