import Verif.Spec.Session
import Verif.Model.Main
/-! # Messages a session can use -/
namespace Ouro.Spec

/-- The session can use a response: it answers a pending request; if it is a refusal for lack of credentials its challenge is understood and there are
credentials; if it grants a SETUP its Transport header and the parameter sets described are understood. -/
def Usable (w : World) (s : Sess) (rsp : Response) : Prop :=
  ∃ req, pending rsp.cseq s.out = some req ∧
    (rsp.statusCode = 401 → (∃ d, newDigest s.baseURI (rsp.header.get b!"WWW-Authenticate") = .ok d) ∧ s.user ≠ none) ∧
    (rsp.statusCode = 200 → req.verb = b!"SETUP" → ∀ f ∈ s.feeds, f.cseq = rsp.cseq → ∃ f', f.transportSetup w.inf (rsp.header.get b!"Transport") = .ok (f', none))

end Ouro.Spec
