import Verif.Model.Digest
import Verif.Spec.Digest
/-! # Specification: when nonce counts repeat (C44) -/
namespace Ouro.Spec

/-- What a program does with a digest it is authenticated with: a request (method, body), or `Next` (random bytes). -/
inductive DigestUse
  | request (verb body : Bytes)
  | next (rnd : Bytes)

/-- The Authorization values of the requests, in order. -/
def valuesSent (md5 : Bytes → Bytes) (f : AuthFunc) (d : Digest) : List DigestUse → Go (List Bytes)
  | [] => .ok []
  | .next rnd :: t => valuesSent md5 f (digestNext rnd d) t
  | .request verb body :: t =>
    match authCall md5 f d verb body with
    | .error p => .error p
    | .ok (a, d') =>
      match valuesSent md5 f d' t with
      | .error p => .error p
      | .ok as => .ok (a :: as)

/-- `Next` is called between any two requests. -/
def NextBetween (uses : List DigestUse) : Prop :=
  ∀ pre mid post v b v' b', uses = pre ++ .request v b :: (mid ++ .request v' b' :: post) → ∃ rnd, DigestUse.next rnd ∈ mid

end Ouro.Spec
