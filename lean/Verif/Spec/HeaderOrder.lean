import Verif.Spec.Message
/-!
# Specification: header lines in another order (RFC 2616, 4.2), for C151

Independent of the model.
-/
namespace Ouro.Spec

/-- The same header lines, but for the order of lines with different names. -/
def SameFields (hs hs' : List SentHeader) : Prop :=
  ∀ name, hs.filter (fun h => sameName h.name name) = hs'.filter (fun h => sameName h.name name)

/-- For every name, the last line with that name (if there is one) has the same value. -/
def SameLast (hs hs' : List SentHeader) : Prop :=
  ∀ name, (hs.reverse.find? fun h => sameName h.name name).map (·.value) = (hs'.reverse.find? fun h => sameName h.name name).map (·.value)

/-- No two of the lines have the same name. -/
def DifferentNames (hs : List SentHeader) : Prop := hs.Pairwise fun a b => ¬ sameName a.name b.name

end Ouro.Spec
