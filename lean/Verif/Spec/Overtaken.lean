import Verif.Spec.ConcurrentSetup
/-! # A command that counts before `Setup` has noted its number (C127) -/
namespace Ouro.Spec

/-- Another goroutine's call `j` is about to write the counter while the request of `Setup` has its number and this is not noted yet. -/
def Overtakes (s : Setting) (j : Nat) : Prop :=
  j ∉ s.mine ∧ (∃ v, s.sh.calls[j]? = some (.loaded v)) ∧
    ∃ i c, s.mine[s.noted.length]? = some i ∧ (s.sh.calls[i]? = some (.queued c) ∨ s.sh.calls[i]? = some (.done c))

/-- This happens at some time. -/
def Overtaken (s : Setting) (ts : List STurn) : Prop := ∃ p j, p ++ [.go j] <+: ts ∧ Overtakes (sturns s p) j

end Ouro.Spec
