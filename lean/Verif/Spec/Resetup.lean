import Verif.Model.Resetup
/-! # Specification: the requests of `Setup` -/
namespace Ouro.Spec

/-- What the request for a stream has to say: the stream's URI and the stream's transport. -/
def wish (base : Bytes) (f : Feed) : Bytes × Bytes := (setupURI base f.media.control, f.transportHeader)

/-- A schedule in which the descriptions that arrive are among the given ones. -/
def Among (ds : List (List Feed)) (ts : List RTurn) : Prop := ∀ fs, RTurn.description fs ∈ ts → fs ∈ ds

end Ouro.Spec
