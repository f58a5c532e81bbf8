import Verif.Model.Session
/-! # Specification: sessions that differ only in credentials, random numbers and the hash function -/
namespace Ouro.Spec

/-- A request without its credentials: only whether it has any is left. -/
def bare (r : Request) : Request := { r with auth := if r.auth = [] then [] else b!"*" }

/-- The same of what a session did. -/
def bareOut : Out → Out
  | .sent retry req res => .sent retry (bare req) res
  | o => o

/-- What happens to a session, but for which credentials the user gives: only whether any is left. -/
def bareOp : Op → Op
  | .dial uri proto user => .dial uri proto (user.map fun _ => ([], []))
  | .open_ uri proto user => .open_ uri proto (user.map fun _ => ([], []))
  | op => op

/-- Two worlds in which the network does the same to requests that are the same but for credentials. The hash functions and the random numbers may be different. -/
structure SameNetwork (w w' : World) : Prop where
  inf : w.inf = w'.inf
  write : ∀ o o' req req', o.map bareOut = o'.map bareOut → bare req = bare req' → w.write o (req.pack req.header) = w'.write o' (req'.pack req'.header)
  listen : ∀ o o' k p, o.map bareOut = o'.map bareOut → w.listen o k p = w'.listen o' k p

end Ouro.Spec
