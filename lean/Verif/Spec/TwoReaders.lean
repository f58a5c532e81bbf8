import Verif.Model.TwoReaders
import Verif.Spec.Deadlines
/-! # Specification: what is delivered after a session has been opened again -/
namespace Ouro.Spec

/-- The bytes of frames. -/
def framesBytes (fs : List (UInt8 × Bytes)) : Bytes := (framesOf fs).flatMap Msg.bytes

/-- Whatever the schedule has been, all frames can still be delivered as they were sent, in their order and nothing else. -/
def Intact (s : TwoReaders) (fs : List (UInt8 × Bytes)) : Prop := ∀ ts, ∃ ts', (qturns s (ts ++ ts')).data = fs

end Ouro.Spec
