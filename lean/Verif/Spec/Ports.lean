import Verif.Spec.Listen
import Verif.Spec.Process
/-! # Ports that cannot be listened on -/
namespace Ouro.Spec

/-- The ports to listen on for the `i`-th stream, granted with `g`. -/
def portsOf (proto : Proto) (i : Nat) (g : Grant) : Pair := (portGiven g.items).getD (if proto = .multicast then portsAsked i else ⟨0, 0⟩)

/-- The channel of the first of the two. -/
def channelOf (i : Nat) : UInt8 := UInt8.ofNat (i + 1) * 2

/-- With these listeners open, the `i`-th stream granted with `g`: listening fails with `r` on the first port, or succeeds there and fails with `r` on the second. `more`: what was
opened before it failed. -/
def ListeningFails (w : World) (open_ : List (UInt8 × Int)) (proto : Proto) (i : Nat) (g : Grant) (r : IORes) (more : List (UInt8 × Int)) : Prop :=
  r ≠ .ok ∧ ((more = [] ∧ ∀ o, w.listen o open_ (portsOf proto i g).one = r) ∨
    (more = [(channelOf i, (portsOf proto i g).one)] ∧ (∀ o, w.listen o open_ (portsOf proto i g).one = .ok) ∧
      ∀ o, w.listen o (open_ ++ more) (portsOf proto i g).two = r))

/-- Listening succeeded on every port of the list, with those before it open. -/
def AllListening (w : World) (ks : List (UInt8 × Int)) : Prop :=
  ∀ pre x post, ks = pre ++ x :: post → ∃ o, w.listen o pre x.2 = .ok

/-- Listening succeeds, whatever happened before, on every port of the list, with `base` and those before it open. -/
def CanListen (w : World) (base ks : List (UInt8 × Int)) : Prop :=
  ∀ pre x post, ks = pre ++ x :: post → ∀ o, w.listen o (base ++ pre) x.2 = .ok

end Ouro.Spec
