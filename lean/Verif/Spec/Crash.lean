import Verif.Spec.Session
import Verif.Model.ParamSets
/-! # Descriptions a session survives -/
namespace Ouro.Spec

/-- A parameter set that `ParseSprop` handles without a panic, whatever was stored before. `C33_panics_iff` says which these are. -/
def SafeSet (buf : Bytes) : Prop := ∀ inf st, ¬ Panics (parseSprop inf st buf)

/-- A description without a bare `m=video` line (`C37_panics_iff`) and with such parameter sets only. -/
def SafeBody (body : Bytes) : Prop :=
  (¬ ∃ line ∈ split 10 body, trimSpace line = b!"m=video") ∧ ∀ ms, sdpParse body = .ok ms → ∀ m ∈ ms, ∀ x ∈ m.spropParameterSets, SafeSet x

/-- An operation that is not RTSP over HTTP and not the arrival of a dangerous description. -/
def SafeOp : Op → Prop
  | .dial _ proto _ => proto ≠ .http
  | .open_ _ proto _ => proto ≠ .http
  | .item (.response rsp) => ∀ body, rsp.body = some body → SafeBody body
  | _ => True

/-- A call that uses the connection to the server: all but `Open`, which makes it, and `Setup`, which does nothing while no streams are known. -/
def UsesConn : Op → Prop
  | .options | .describe | .play | .pause | .teardown | .keepAlive _ => True
  | .dial _ _ _ | .open_ _ _ _ | .setup | .item _ => False

end Ouro.Spec
