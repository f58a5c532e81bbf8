import Verif.Spec.Session
import Verif.Spec.Digest
/-! # Authorized requests, stated on the wire -/
namespace Ouro.Spec

/-- The latest challenge the session has answered (by sending the refused request again), and what came before it. A trace is given latest event
first. -/
def challengeOf : List Out → Option (Response × List Out)
  | [] => none
  | .sent true _ _ :: .got rsp :: older => some (rsp, older)
  | _ :: older => challengeOf older

/-- No operation opens a connection. -/
def NoOpen (ops : List Op) : Prop := ∀ op ∈ ops, ¬ Opens op

end Ouro.Spec
