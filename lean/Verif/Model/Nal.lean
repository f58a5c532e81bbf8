import Verif.Model.AnnexB
import Verif.Model.Bits
/-!
# Model of /repo/net/h264/packet.go

`uint16`/`uint32` fields are `Nat`s wrapped by `u16`/`u32` at every addition or shift. Slices are values; Model/NalHeap has the same functions
with shared arrays, and C81 relates the two.
-/
namespace Ouro

/-- packet.go:59-64 `NALUnit`. -/
structure NALUnit where
  header : UInt8
  don : Nat
  ts : Nat
  data : Bytes
  deriving DecidableEq, Repr

/-- packet.go:73-76 `NALFragment`. -/
structure NALFragment where
  unit : NALUnit
  flags : UInt8
  deriving DecidableEq, Repr

/-- packet.go:79-83 `NALSink`. -/
structure NALSink where
  units : List NALUnit
  fragments : List NALFragment
  don : Nat
  deriving DecidableEq, Repr

/-- packet.go:95-97 `ZeroBit`. -/
def NALUnit.zeroBit (u : NALUnit) : Bool := (u.header &&& 0x80) == 0
/-- packet.go:100-102 `RefIdc`. -/
def NALUnit.refIdc (u : NALUnit) : UInt8 := (u.header &&& 0x60) >>> 5
/-- packet.go:105-107 `Type`. -/
def NALUnit.type (u : NALUnit) : UInt8 := u.header &&& 0x1F
/-- packet.go:110-112 `IsStart`. -/
def NALFragment.isStart (f : NALFragment) : Bool := (f.flags &&& 0x80) != 0
/-- packet.go:115-117 `IsEnd`. -/
def NALFragment.isEnd (f : NALFragment) : Bool := (f.flags &&& 0x40) != 0

/-- packet.go:123-128 `NewNALSink`. -/
def newNALSink : NALSink := { units := [], fragments := [], don := 0 }

/-- packet.go:133-155 `AddFragment`. -/
def addFragment (s : NALSink) (indicator header : UInt8) (don ts : Nat) (data : Bytes) : NALSink :=
  let frs := if (header &&& 0x80) != 0 then [] else s.fragments
  let frs := frs ++ [{ unit := { header := indicator, don := don, ts := ts, data := data }, flags := header }]
  if (header &&& 0x40) != 0 then
    { s with
      fragments := frs
      units := s.units ++ [{ header := indicator, don := don, ts := ts, data := frs.flatMap (·.unit.data) }] }
  else { s with fragments := frs }

/-- packet.go:165-176: loop of `parseSTAP`. The first argument bounds the iterations. -/
def stapLoop : Nat → NALSink → Bytes → Nat → Go (Option H264Err × NALSink)
  | 0, _, _, _ => .error .fuel
  | fuel + 1, s, buf, ts =>
    if buf.length < 2 then .ok (none, s)
    else
      match beU16 buf with
      | .error p => .error p
      | .ok size =>
        if buf.length < u16 (size + 2) then .ok (some .packetTooShort, s)
        else
          match idx buf 2 with
          | .error p => .error p
          | .ok h =>
            match slice buf 3 (u16 (size + 2)) with
            | .error p => .error p
            | .ok d =>
              match sliceFrom buf (u16 (size + 2)) with
              | .error p => .error p
              | .ok rest =>
                stapLoop fuel
                  { s with
                    units := s.units ++ [{ header := h, don := s.don, ts := ts, data := d }]
                    don := u16 (s.don + 1) } rest ts

/-- packet.go:157-177 `parseSTAP`. -/
def parseSTAP (typ : UInt8) (s : NALSink) (buf : Bytes) (ts : Nat) : Go (Option H264Err × NALSink) :=
  if typ == 25 then
    if buf.length < 2 then .ok (some .packetTooShort, s)
    else
      match beU16 buf with
      | .error p => .error p
      | .ok don =>
        match sliceFrom buf 2 with
        | .error p => .error p
        | .ok rest => stapLoop (rest.length + 1) { s with don := don } rest ts
  else stapLoop (buf.length + 1) s buf ts

/-- packet.go:189-206: loop of `parseMTAP`. The first argument bounds the iterations. -/
def mtapLoop : Nat → (typ : UInt8) → (off : Nat) → NALSink → Bytes → Nat → Go (Option H264Err × NALSink)
  | 0, _, _, _, _, _ => .error .fuel
  | fuel + 1, typ, off, s, buf, ts =>
    if buf.length < off then .ok (none, s)
    else
      match beU16 buf, idx buf 2, idx buf 3, idx buf 4 with
      | .ok size, .ok dond, .ok t1, .ok t2 =>
        match (if typ == 27 then
            match idx buf 5 with
            | .error p => .error p
            | .ok t3 => .ok (u32 (u32 (ts <<< 8) + t3.toNat))
          else .ok (u32 (t1.toNat <<< 8 + t2.toNat)) : Go Nat) with
        | .error p => .error p
        | .ok tsoff =>
          if buf.length < u16 (size + off) then .ok (some .packetTooShort, s)
          else
            match idx buf off with
            | .error p => .error p
            | .ok h =>
              match slice buf (u16 (off + 1)) (u16 (size + off)) with
              | .error p => .error p
              | .ok d =>
                match sliceFrom buf (u16 (size + off)) with
                | .error p => .error p
                | .ok rest =>
                  mtapLoop fuel typ off
                    { s with
                      units := s.units ++
                        [{ header := h, don := u16 (s.don + dond.toNat), ts := u32 (ts + tsoff), data := d }]
                      don := u16 (s.don + 1) } rest ts
      | .error p, _, _, _ => .error p
      | _, .error p, _, _ => .error p
      | _, _, .error p, _ => .error p
      | _, _, _, .error p => .error p

/-- packet.go:179-207 `parseMTAP`. -/
def parseMTAP (typ : UInt8) (s : NALSink) (buf : Bytes) (ts : Nat) : Go (Option H264Err × NALSink) :=
  if buf.length < 2 then .ok (some .packetTooShort, s)
  else
    match beU16 buf with
    | .error p => .error p
    | .ok don =>
      match sliceFrom buf 2 with
      | .error p => .error p
      | .ok rest =>
        mtapLoop (rest.length + 1) typ (if typ == 27 then 2 + 1 + 2 + 1 else 2 + 1 + 2) { s with don := don } rest ts

/-- packet.go:220-253 `parseNAL`. -/
def parseNAL (s : NALSink) (buf : Bytes) (ts : Nat) : Go (Option H264Err × NALSink) :=
  let s := { s with units := [] }
  match buf with
  | [] => .ok (some .packetTooShort, s)
  | b0 :: rest =>
    let typ := b0 &&& 0x1F
    if typ == 24 then parseSTAP typ s rest ts
    else if typ == 25 then parseSTAP typ s rest ts
    else if typ == 26 then parseMTAP typ s rest ts
    else if typ == 27 then parseMTAP typ s rest ts
    else if typ == 28 then
      let nri := b0 &&& 0x60
      if buf.length < 2 then .ok (some .packetTooShort, s)
      else
        match idx buf 1, sliceFrom buf 2 with
        | .ok b1, .ok d => .ok (none, addFragment s (nri + (b1 &&& 0x1F)) b1 s.don ts d)
        | .error p, _ => .error p
        | _, .error p => .error p
    else if typ == 29 then
      let nri := b0 &&& 0x60
      if buf.length < 4 then .ok (some .packetTooShort, s)
      else
        match idx buf 1, sliceFrom buf 2, sliceFrom buf 4 with
        | .ok b1, .ok d2, .ok d =>
          match beU16 d2 with
          | .ok don => .ok (none, addFragment s (nri + (b1 &&& 0x1F)) b1 don ts d)
          | .error p => .error p
        | .error p, _, _ => .error p
        | _, .error p, _ => .error p
        | _, _, .error p => .error p
    else
      .ok (none, { s with
        units := s.units ++ [{ header := b0, don := s.don, ts := ts, data := rest }]
        don := u16 (s.don + 1) })

/-- packet.go:212-216: loop of `Push`. -/
def pushLoop (s : NALSink) (ts : Nat) : List Bytes → Go (Option H264Err × NALSink)
  | [] => .ok (none, s)
  | nal :: nals =>
    match parseNAL s nal ts with
    | .error p => .error p
    | .ok (some e, s') => .ok (some e, s')
    | .ok (none, s') => pushLoop s' ts nals

/-- packet.go:210-218 `Push`. -/
def push (s : NALSink) (buf : Bytes) (ts : Nat) : Go (Option H264Err × NALSink) :=
  match splitAnnexB buf with
  | .error p => .error p
  | .ok nals => pushLoop s ts nals

/-- packet.go:256-264 `DonDiff`. -/
def donDiff (don1 don2 : Nat) : Int :=
  let diff : Int := (don2 : Int) - (don1 : Int)
  if diff ≥ 32768 then diff - 65536
  else if diff ≤ -32768 then diff + 65536
  else diff

end Ouro
