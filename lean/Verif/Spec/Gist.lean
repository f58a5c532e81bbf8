import Verif.Model.Session
/-! # Specification: what of a response matters to a session -/
namespace Ouro.Spec

/-- A response with nothing but its code, its number, its body and four of its headers. -/
def gist (r : Response) : Response :=
  { proto := [], status := [], statusCode := r.statusCode, contentLength := 0, cseq := r.cseq, body := r.body,
    header := [(b!"Public", r.header.get b!"Public"), (b!"Session", r.header.get b!"Session"), (b!"Transport", r.header.get b!"Transport"),
      (b!"Www-Authenticate", r.header.get b!"WWW-Authenticate")] }

/-- The same of what a session did and received. -/
def gistOut : Out → Out
  | .got r => .got (gist r)
  | o => o

/-- The same of what happens to a session. -/
def gistOp : Op → Op
  | .item (.response r) => .item (.response (gist r))
  | op => op

/-- The clock, the network and the random numbers do not go by the rest of the responses. -/
structure Deaf (w : World) : Prop where
  rnd : ∀ o, w.rnd (o.map gistOut) = w.rnd o
  write : ∀ o b, w.write (o.map gistOut) b = w.write o b
  listen : ∀ o k p, w.listen (o.map gistOut) k p = w.listen o k p

end Ouro.Spec
