import Verif.Spec.Main
/-! # Specification: the requests of a session (latest first) -/
namespace Ouro.Spec

/-- What the client's session did on the connection. -/
def wires (trace : List Act) : List Out := trace.filterMap fun a => match a with | .wire o => some o | _ => none

/-- How many requests with method `v` were sent, not counting those sent again after a 401. -/
def firsts (v : Bytes) : List Out → Nat
  | [] => 0
  | .sent false req _ :: older => firsts v older + if req.verb = v then 1 else 0
  | _ :: older => firsts v older

end Ouro.Spec
