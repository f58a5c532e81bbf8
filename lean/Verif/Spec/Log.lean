import Verif.Spec.Main
import Verif.Model.Log
/-! # RunsOn of the command line client, from the address on its command line to what it prints -/
namespace Ouro.Spec

/-- The client is run with an address, of which the dialing makes `d`, and the connection can be made. `ord`: in which order Go iterates
over headers. `rdr`: what comes from the connection. `n`: how often `process` reads before OPTIONS is sent. `es`: the schedule then. -/
def RunsOn (ord : Orders) (w : World) (address : Bytes) (d : Dialed) (rdr : Rdr) (n : Nat) (es : List CEv) (l : Logged) : Prop :=
  dial address = some d ∧ ∃ l0, lopen ord w d.base d.user rdr n = .ok l0 ∧ lsteps ord w l0 es = .ok l

/-- The responses with which requests were refused for lack of authorization. -/
def unauthorized (t : List Act) : List Response :=
  t.filterMap fun a => match a with | .wire (.got rsp) => if rsp.statusCode = 401 then some rsp else none | _ => none

end Ouro.Spec
