import Verif.Model.Transport
/-!
# Specification: the channels of streams over UDP, for C150

Independent of the model, but for the type of port pairs.
-/
namespace Ouro.Spec

/-- The channels and ports of streams that are granted one after the other, when `n` were answered before: two channels for each, from the number of its answer. -/
def channelsFrom : Nat → List Pair → List (UInt8 × Int)
  | _, [] => []
  | n, p :: ps => (UInt8.ofNat (2 * (n + 1)), p.one) :: (UInt8.ofNat (2 * (n + 1)) + 1, p.two) :: channelsFrom (n + 1) ps

end Ouro.Spec
