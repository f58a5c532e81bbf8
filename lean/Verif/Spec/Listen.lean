import Verif.Spec.Commands
import Verif.Spec.Transport
/-! # UDP listeners, stated on the Transport headers -/
namespace Ouro.Spec

/-- The ports named by the last `port` parameter, if there is one. -/
def portGiven : List TItem → Option Pair
  | [] => none
  | i :: is => (portGiven is).or (match i.param with | .port r => some r.pair | _ => none)

/-- A grant of the server for UDP: a Transport header of the grammar whose lower transport is not TCP. -/
structure Grant where
  low : Lower
  items : List TItem

def Grant.WF (g : Grant) : Prop := g.low ≠ .tcp ∧ ∀ i ∈ g.items, i.WF

/-- A response that grants the SETUP with that number. -/
def Grants (g : Grant) (cseq : Int) (rsp : Response) : Prop :=
  rsp.cseq = cseq ∧ rsp.statusCode = 200 ∧ rsp.header.get b!"Transport" = transportText g.low g.items

/-- The ports the client asked for, for the `i`-th stream. -/
def portsAsked (i : Nat) : Pair := ⟨50000 + 2 * i, 50000 + 2 * i + 1⟩

/-- What the user relies on: listeners on the ports asked for, for the channels of the stream. -/
def listenersWanted (n : Nat) : List (UInt8 × Int) :=
  (List.range n).flatMap fun i => [(UInt8.ofNat (2 * i), (portsAsked i).one), (UInt8.ofNat (2 * i + 1), (portsAsked i).two)]

/-- The listeners opened for the feeds `j, j + 1, ...`, given the ports their transports have at first. -/
def listenersOf (proto : Proto) (j : Nat) : List Grant → List (UInt8 × Int)
  | [] => []
  | g :: gs =>
    let p := (portGiven g.items).getD (if proto = .multicast then portsAsked j else ⟨0, 0⟩)
    (UInt8.ofNat (j + 1) * 2, p.one) :: (UInt8.ofNat (j + 1) * 2 + 1, p.two) :: listenersOf proto (j + 1) gs

/-- Responses that grant the SETUP requests one after the other. -/
inductive GrantAll : Nat → List Grant → List Op → Prop
  | nil (k : Nat) : GrantAll k [] []
  | cons {k : Nat} {g gs ops} (rsp : Response) : Grants g ((k : Int) + 1) rsp → GrantAll (k + 1) gs ops → GrantAll k (g :: gs) (.item (.response rsp) :: ops)

end Ouro.Spec
