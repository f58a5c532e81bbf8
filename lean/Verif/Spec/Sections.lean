import Verif.Spec.Ignored
/-! # Specification: descriptions put together -/
namespace Ouro.Spec

/-- The lines are a media section, with any number of others after it: the first is an `m=` line. -/
def IsSection (ls : List Bytes) : Prop := ∃ l t, ls = l :: t ∧ isMLine l = true

/-- Two results one after the other; a panic of the first, then of the second, is a panic of the whole. -/
def oneAfterOther {α : Type} (a b : Except Panic (List α)) : Except Panic (List α) :=
  match a, b with
  | .error p, _ => .error p
  | .ok _, .error p => .error p
  | .ok x, .ok y => .ok (x ++ y)

/-- Lines that give the same streams after any other description as they give alone, after its own. -/
def SpeaksForItself (parse : Bytes → Except Panic (List α)) (b : List Bytes) : Prop :=
  ∀ a : List Bytes, (∀ l ∈ a, (10 : UInt8) ∉ l) → parse (unlines (a ++ b)) = oneAfterOther (parse (unlines a)) (parse (unlines b))

end Ouro.Spec
