import Verif.Spec.Timestamps
/-! # Specification: joining a stream in the middle -/
namespace Ouro.Spec

/-- A unit without its decoding order number. -/
def unnumbered (u : NALUnit) : NALUnit := { u with don := 0 }

/-- The same for everything a user gets. -/
def unnumberedAll (r : Except Panic (Option H264Err × List NALUnit)) : Except Panic (Option H264Err × List NALUnit) :=
  match r with
  | .error p => .error p
  | .ok (e, us) => .ok (e, us.map unnumbered)

/-- A fragment: FU-A, or FU-B with its number. -/
def isFragment (n : Bytes) : Bool :=
  match n with
  | h :: _ :: t => h &&& 0x1F == 28 || (h &&& 0x1F == 29 && 2 ≤ t.length)
  | _ => false

/-- A fragment with the start bit. -/
def opens (n : Bytes) : Bool := isFragment n && (n.getD 1 0) &&& 0x80 != 0

/-- A fragment with the end bit. -/
def closes (n : Bytes) : Bool := isFragment n && (n.getD 1 0) &&& 0x40 != 0

/-- A sink takes this without error. -/
def accepted (n : Bytes) (ts : Nat) : Bool :=
  match parseNAL newNALSink n ts with
  | .ok (none, _) => true
  | _ => false

/-- In the parts of a payload, up to the first refused: does a start come (`some false`), or, before any start, an end as the last part (`some true`)? -/
def unopened (ts : Nat) : List Bytes → Option Bool
  | [] => none
  | n :: ns =>
    if opens n then some false
    else if closes n && ns.isEmpty then some true
    else if accepted n ts then unopened ts ns
    else none

/-- The stream ends a unit that it has not started. -/
def Headless : List (Bytes × Nat) → Prop
  | [] => False
  | (b, ts) :: ps =>
    match splitAnnexB b with
    | .error _ => False
    | .ok nals =>
      match unopened ts nals with
      | some x => x = true
      | none =>
        match push newNALSink b ts with
        | .error _ => False
        | .ok _ => Headless ps

/-- The sink after these payloads, if none panicked. -/
def having : NALSink → List (Bytes × Nat) → Except Panic NALSink
  | s, [] => .ok s
  | s, (b, ts) :: ps =>
    match push s b ts with
    | .error p => .error p
    | .ok (_, s') => having s' ps

/-- The bytes of the fragments a sink keeps. -/
def keptBytes (s : NALSink) : Bytes := s.fragments.flatMap (·.unit.data)

end Ouro.Spec
