import Verif.Spec.Session
/-! # What the server learns about the credentials -/
namespace Ouro.Spec

/-- The challenges the server has sent, in the order of the history. -/
def challenges : List Op → List Bytes
  | [] => []
  | .item (.response rsp) :: ops => (if rsp.statusCode = 401 then [rsp.header.get b!"WWW-Authenticate"] else []) ++ challenges ops
  | _ :: ops => challenges ops

/-- What can be observed of a history that starts with `Open` of `uri` with these credentials: the trace, or the panic. -/
def observed (w : World) (uri : Bytes) (proto : Proto) (user : Option (Bytes × Bytes)) (ops : List Op) : Go (List Out) :=
  match run w newSession (.open_ uri proto user :: ops) with
  | .error p => .error p
  | .ok s => .ok s.out

end Ouro.Spec
