import Verif.Spec.Url
import Verif.Spec.Commands
/-! # Relative references, RFC 3986, 5.2, and the base of a description, RFC 2326, C.1.1 -/
namespace Ouro.Spec

/-- A path up to its last slash, with it. -/
def upToSlash (p : Bytes) : Bytes := (p.reverse.dropWhile (· ≠ 47)).reverse

/-- What a relative path is put behind: RFC 3986, 5.2.3 `merge`. -/
def Address.folder (b : Address) : Bytes :=
  b.scheme ++ b!"://" ++ userPart b.user ++ b.host ++ portPart b.port ++ if b.path = [] then [47] else upToSlash b.path

/-- A reference that is a relative path without dot segments (RFC 3986, 4.2 `path-noscheme`), maybe with a query. Against a base `b` it stands
for `b.folder ++ c`. -/
structure RelativePath (c : Bytes) : Prop where
  ne : c ≠ []
  first : c.head? ≠ some 47 ∧ c.head? ≠ some 63 ∧ c.head? ≠ some 35
  scheme : (58 : UInt8) ∉ c.takeWhile (· ≠ 47)
  dots : ∀ seg ∈ split 47 (c.takeWhile fun x => x ≠ 63 ∧ x ≠ 35), seg ≠ b!"." ∧ seg ≠ b!".."

/-- The base of a description that came with the header `h` and was asked for with the URI `requested`: RFC 2326, C.1.1. -/
def descriptionBase (requested : Bytes) (h : Header) : Bytes :=
  if h.get b!"Content-Base" ≠ [] then h.get b!"Content-Base"
  else if h.get b!"Content-Location" ≠ [] then h.get b!"Content-Location"
  else requested

end Ouro.Spec
