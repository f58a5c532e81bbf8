import Verif.Spec.SetOrder
/-! # Specification: which parameter sets may be given in any order -/
namespace Ouro.Spec

/-- The calls may be made in any order, from a store on: none of them panics, each returns the same error as before, and the store is the same at the end. -/
def AnySetOrder (inf : Nat) (st : ParameterSets) (ops : List SetOp) : Prop :=
  ∀ ops', ops'.Perm ops → ∃ r r' s, setResults inf ops st = .ok (r, s) ∧ setResults inf ops' st = .ok (r', s) ∧ r'.Perm r

/-- Two calls may be exchanged when they are the only ones. -/
def SetExchange (inf : Nat) (st : ParameterSets) (a b : SetOp) : Prop :=
  ∃ ea eb s, setResults inf [a, b] st = .ok ([(a, ea), (b, eb)], s) ∧ setResults inf [b, a] st = .ok ([(b, eb), (a, ea)], s)

end Ouro.Spec
