import Verif.Spec.Digest
import Verif.Spec.Message
/-! Several challenges in one response, RFC 2617, 1.2 and 4.6 (C97). -/
namespace Ouro.Spec

/-- One challenge: its scheme, Basic or Digest, and its parameters. -/
structure Offer where
  basic : Bool
  params : List Param

def Offer.text (o : Offer) : Bytes := (if o.basic then b!"Basic " else b!"Digest ") ++ paramsText o.params

/-- Well-formed, and a Digest challenge names a hash that a client knows. -/
structure Offer.WF (o : Offer) : Prop where
  some : o.params ≠ []
  params : ∀ p ∈ o.params, p.WF
  last : ∀ p, o.params.getLast? = .some p → p.after = []
  known : ((lastValue .algorithm o.params).map toLower).getD b!"md5" ∈ [b!"md5", b!"md5-sess"]

/-- The response has these challenges, each in a WWW-Authenticate line of its own, in this order. -/
def Offers (t : Sent) (os : List Offer) : Prop :=
  (t.headers.filter fun h => sameName h.name b!"WWW-Authenticate").map (·.value) = os.map Offer.text

end Ouro.Spec
