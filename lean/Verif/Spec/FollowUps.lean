import Verif.Spec.Session
import Verif.Spec.Sdp
/-! # Specification: what follows an answer (C72, C89) -/
namespace Ouro.Spec

/-- Something in the list is a request that was sent. -/
def SendsOne (outs : List Out) : Prop := ∃ r q res, Out.sent r q res ∈ outs

/-- Something in the list is a request that could not be written. -/
def SendFails (outs : List Out) : Prop := ∃ r q res, Out.sent r q res ∈ outs ∧ res ≠ .ok

/-- Something in the list is a stage reported to the user. -/
def Reports (outs : List Out) : Prop := ∃ k, Out.notified k ∈ outs

/-- The answer to a first OPTIONS, or an answer to DESCRIBE with a body that has a video section. -/
def Continues (stage : Nat) (req : Request) (rsp : Response) : Prop :=
  (req.verb = b!"OPTIONS" ∧ stage = 0) ∨ (req.verb = b!"DESCRIBE" ∧ ∃ body, rsp.body = some body ∧ videoSections (split 10 body) ≠ [])

end Ouro.Spec
