import Verif.Spec.Session
import Verif.Spec.Sdp
/-!
# What the server has described

On a trace, latest event first, as in Spec/Session.
-/
namespace Ouro.Spec

/-- How many video sections the last description has. A description is the body of an answer to a pending DESCRIBE other than a refusal (401). -/
def described : List Out → Nat
  | [] => 0
  | .got rsp :: older =>
    if rsp.statusCode ≠ 401 ∧ (pending rsp.cseq older).map (·.verb) = some b!"DESCRIBE" then
      match rsp.body with
      | some body => (videoSections (split 10 body)).length
      | none => described older
    else described older
  | _ :: older => described older

end Ouro.Spec
