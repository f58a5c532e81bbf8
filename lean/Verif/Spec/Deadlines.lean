import Verif.Spec.Receive
/-! # Bytes with deadlines expiring among them -/
namespace Ouro.Spec

/-- The bytes among what a connection delivers. -/
def bytesOf : List Ev → Bytes
  | [] => []
  | .byte b :: t => b :: bytesOf t
  | _ :: t => bytesOf t

/-- Frames: channel and payload of each. -/
def framesOf (fs : List (UInt8 × Bytes)) : List Msg := fs.map fun f => .frame f.1 f.2

end Ouro.Spec
