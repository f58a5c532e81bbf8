import Verif.Model.Process
import Verif.Spec.Commands
/-! # Keep-alive messages in time -/
namespace Ouro.Spec

/-- A new OPTIONS request that names the session. -/
def IsKeepAlive : Out → Prop
  | .sent retry q _ => retry = false ∧ q.verb = b!"OPTIONS" ∧ b!"Session" ∈ q.header.map Prod.fst
  | _ => False

instance : DecidablePred IsKeepAlive := fun o => by unfold IsKeepAlive; split <;> infer_instance

/-- When keep-alive messages were sent, latest first. -/
def keepAliveTimes (log : List (Nat × Out)) : List Nat := (log.filter fun x => decide (IsKeepAlive x.2)).map Prod.fst

/-- The clock does not go back: the times of the events, from `t` on. -/
def Ticks : Nat → List PEv → Prop
  | _, [] => True
  | t, .turn a b c :: es => t ≤ a ∧ a ≤ b ∧ b ≤ c ∧ Ticks c es
  | t, .call _ a :: es => t ≤ a ∧ Ticks a es

/-- The time of the last event. -/
def endTime : Nat → List PEv → Nat
  | t, [] => t
  | _, .turn _ _ c :: es => endTime c es
  | _, .call _ a :: es => endTime a es

/-- The state can be reached from `Open` with a clock that does not go back, and the clock shows `t`. -/
def ProcReachable (w : World) (proto : Proto) (t : Nat) (p : Clocked) : Prop :=
  ∃ t0 uri user rdr p0 es, procOpen w t0 uri proto user rdr = .ok p0 ∧ Ticks t0 es ∧ psteps w p0 es = .ok p ∧ endTime t0 es ≤ t

/-- The session is in use: it was reported to be ready, playing or paused, and nothing since. -/
def InUse (log : List (Nat × Out)) : Prop := let k := stageNow (log.map Prod.snd); k = 1 ∨ k = 2 ∨ k = 3

instance (log : List (Nat × Out)) : Decidable (InUse log) := by unfold InUse; infer_instance

/-- Reading fails: nothing (whole) comes from the connection, for another reason than an expired deadline, or the message that came leads to an error other than
a timeout or a temporary failure (of a `Write` or of listening on a port). -/
def ReadingFails (w : World) (s : Sess) (r : Rdr) : Prop :=
  match (recv r).1 with
  | .error e => e ≠ .io .timeout
  | .ok item => ∃ s' e, handleItem w s item = .ok (s', some e) ∧ e ≠ .write true ∧ e ≠ .listen true

end Ouro.Spec
