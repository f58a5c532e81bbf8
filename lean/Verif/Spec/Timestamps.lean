import Verif.Model.Nal
/-! # Specification: timestamps of pushed payloads -/
namespace Ouro.Spec

/-- What a user who pushes payloads with timestamps gets for each: the error and the units. A panic ends it. -/
def reports : NALSink → List (Bytes × Nat) → List (Except Panic (Option H264Err × List NALUnit))
  | _, [] => []
  | s, (b, ts) :: ps =>
    match push s b ts with
    | .error p => [.error p]
    | .ok (e, s') => .ok (e, s'.units) :: reports s' ps

/-- A unit with another timestamp. -/
def stamp (f : Nat → Nat) (u : NALUnit) : NALUnit := { u with ts := f u.ts }

/-- The same for everything a user gets. -/
def stampAll (f : Nat → Nat) (r : Except Panic (Option H264Err × List NALUnit)) : Except Panic (Option H264Err × List NALUnit) :=
  match r with
  | .error p => .error p
  | .ok (e, us) => .ok (e, us.map (stamp f))

/-- A clock of 32 bits that is ahead by `d`. -/
def ahead (d : Nat) (t : Nat) : Nat := (t + d) % 2 ^ 32

/-- There is no MTAP24 packet in the payload. -/
def NoMtap24 (b : Bytes) : Prop := ∀ nals, splitAnnexB b = .ok nals → ∀ h t, h :: t ∈ nals → h &&& 0x1F ≠ 27

end Ouro.Spec
