import Verif.Spec.Firsts
import Verif.Spec.Commands
/-! # Specification: a session that is over -/
namespace Ouro.Spec

/-- Something that is only received: the session sends nothing, reports no stage and starts nothing. -/
def Incoming : Out → Prop
  | .got _ => True
  | .data _ _ => True
  | _ => False

/-- The same for the client. -/
def OnlyTakes : Act → Prop
  | .wire o => Incoming o
  | _ => True

end Ouro.Spec
