import Verif.Spec.EndToEnd
/-! # The client is left alone -/
namespace Ouro.Spec

/-- The client has not ended, and nothing can happen any more: no turn of its goroutines and no timer changes anything. -/
def Deadlocked (w : World) (c : Client) : Prop := c.ended = false ∧ ∀ e, cstep w c e = .ok c

/-- Some order of events ends the client. -/
def CanEnd (w : World) (c : Client) : Prop := ∃ es c', csteps w c es = .ok c' ∧ c'.ended = true

/-- The connection is lost and what was read from it has been taken by the client. -/
def LeftAlone (c : Client) : Prop := c.ended = false ∧ c.running = false ∧ c.states = [] ∧ c.data = []

/-- The request could not be written. -/
def CannotSend (r : Go (Sess × Option SErr)) : Prop := ∃ s e, r = .ok (s, some e)

end Ouro.Spec
