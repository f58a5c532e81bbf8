import Verif.Spec.Main
import Verif.Spec.Receive
/-! # From the connection to the units, stated on what the server sends and what the client reports -/
namespace Ouro.Spec

/-- The frames among the messages. -/
def framesSent : List Msg → List (UInt8 × Bytes)
  | [] => []
  | .frame ch p :: ms => (ch, p) :: framesSent ms
  | .response _ :: ms => framesSent ms

/-- The video packets among the messages: RTP with H.264. -/
def Carries264 (ms : List Msg) (vs : List Video) : Prop :=
  onVideo (framesSent ms) = vs.map (fun v => (v.ch, v.rtp.encode)) ∧
  ∀ v ∈ vs, v.Valid

/-- The client after a schedule, with a connection that delivers `evs`; `process` may have read any number of times before OPTIONS was sent. -/
def ClientRuns (w : World) (uri : Bytes) (user : Option (Bytes × Bytes)) (evs : List Ev) (es : List CEv) (c : Client) : Prop :=
  ∃ n c0, clientEarly w uri user ⟨[], none, evs⟩ n = .ok c0 ∧ csteps w c0 es = .ok c

end Ouro.Spec
