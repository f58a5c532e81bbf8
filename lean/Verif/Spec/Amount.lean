import Verif.Model.Main
/-! # Specification: how much is sent, and how much for -/
namespace Ouro.Spec

/-- How many requests were sent, with those sent again. -/
def requests (trace : List Act) : Nat := (trace.filter fun a => match a with | .wire (.sent _ _ _) => true | _ => false).length

/-- The bytes a connection will still deliver: those that the client has not taken yet. -/
def undelivered (r : Rdr) : Nat := r.buf.length + (r.net.filter fun e => match e with | .byte _ => true | _ => false).length

end Ouro.Spec
