import Verif.Go.Slices
import Verif.Model.Nal
/-!
# Model of annexb.go and packet.go of /repo/net/h264 with slices as references

The same functions as in Model/AnnexB and Model/Nal, but with arrays that are shared and overwritten as in Go. Bytes, units and fragments
are kept in three heaps.
-/
namespace Ouro

/-- packet.go:59-64 `NALUnit`. -/
structure HUnit where
  header : UInt8
  don : Nat
  ts : Nat
  data : Sl
  deriving DecidableEq, Repr

/-- packet.go:73-76 `NALFragment`. -/
structure HFrag where
  unit : HUnit
  flags : UInt8
  deriving DecidableEq, Repr

instance : Inhabited HUnit := ⟨⟨0, 0, 0, ⟨0, 0, 0, 0⟩⟩⟩
instance : Inhabited HFrag := ⟨⟨default, 0⟩⟩

/-- The memory. -/
structure Mem where
  b : Heap UInt8
  u : Heap HUnit
  f : Heap HFrag

/-- packet.go:79-83 `NALSink`. -/
structure HSink where
  units : Sl
  fragments : Sl
  don : Nat

/-- annexb.go:40-49: loop of `EBSPToRaw`; `buf` and `rbsp` are slices. -/
def hEbspLoop (g : Nat → Nat) (h : Heap UInt8) (buf : Sl) (off : Nat) (rbsp : Sl) : Go (Heap UInt8 × Sl) :=
  if _h : off < buf.len then
    match andGo (.ok (decide (buf.len - off ≥ 3))) fun _ =>
        andGo (testAt (buf.view h) off (· == 0)) fun _ =>
        andGo (testAt (buf.view h) (off + 1) (· == 0)) fun _ => testAt (buf.view h) (off + 2) (· == 3) with
    | .error p => .error p
    | .ok true => hEbspLoop g (h.append g rbsp [0, 0]).1 buf (off + 3) (h.append g rbsp [0, 0]).2
    | .ok false =>
      match idx (buf.view h) off with
      | .error p => .error p
      | .ok b => hEbspLoop g (h.append g rbsp [b]).1 buf (off + 1) (h.append g rbsp [b]).2
  else .ok (h, rbsp)
  termination_by buf.len - off

/-- annexb.go:36-51 `EBSPToRaw`. -/
def hEbspToRaw (g : Nat → Nat) (h : Heap UInt8) (buf : Sl) : Go (Heap UInt8 × Sl) := hEbspLoop g (h.make buf.len).1 buf 0 (h.make buf.len).2

/-- Append `EBSPToRaw(s)` to the units (annexb.go:19, 22, 30). The slice `units` of slices is local and kept as a list. -/
def hAppendUnit (g : Nat → Nat) (h : Heap UInt8) (units : List Sl) (s : Go Sl) : Go (Heap UInt8 × List Sl) :=
  match s with
  | .error p => .error p
  | .ok s =>
    match hEbspToRaw g h s with
    | .error p => .error p
    | .ok (h, u) => .ok (h, units ++ [u])

/-- annexb.go:17-23. -/
def hSplitEmit (g : Nat → Nat) (h : Heap UInt8) (buf : Sl) (off prev : Nat) (units : List Sl) : Go (Heap UInt8 × List Sl) :=
  match andGo (.ok (decide (off > 0))) fun _ => testAt (buf.view h) (off - 1) (· == 0) with
  | .error p => .error p
  | .ok true => if off > prev + 1 then hAppendUnit g h units (buf.sub prev (off - 1)) else .ok (h, units)
  | .ok false => if off > prev then hAppendUnit g h units (buf.sub prev off) else .ok (h, units)

/-- annexb.go:11-30: loop of `SplitAnnexB` and the final append. -/
def hSplitLoop (g : Nat → Nat) (h : Heap UInt8) (buf : Sl) (off prev : Nat) (units : List Sl) : Go (Heap UInt8 × List Sl) :=
  if _h : off + 3 < buf.len then
    match testAt (buf.view h) (off + 2) (fun b => decide (b > 1)) with
    | .error p => .error p
    | .ok true => hSplitLoop g h buf (off + 3) prev units
    | .ok false =>
      match andGo (testAt (buf.view h) (off + 2) (· == 1)) fun _ =>
          andGo (testAt (buf.view h) (off + 1) (· == 0)) fun _ => testAt (buf.view h) off (· == 0) with
      | .error p => .error p
      | .ok true =>
        match hSplitEmit g h buf off prev units with
        | .error p => .error p
        | .ok (h, units) => hSplitLoop g h buf (off + 3) (off + 3) units
      | .ok false => hSplitLoop g h buf (off + 1) prev units
  else hAppendUnit g h units (buf.from prev)
  termination_by buf.len - off

/-- annexb.go:7-32 `SplitAnnexB`. -/
def hSplitAnnexB (g : Nat → Nat) (h : Heap UInt8) (buf : Sl) : Go (Heap UInt8 × List Sl) := hSplitLoop g h buf 0 0 []

/-- `make([]byte{}, 0)`: an empty slice, packet.go:149. -/
def emptySl : Sl := ⟨0, 0, 0, 0⟩

/-- session.go:187 and connection.go:213 `append([]byte{}, buf...)`: the payload of a packet that is handed over, from the reader's buffer. -/
def hCopy (g : Nat → Nat) (h : Heap UInt8) (buf : Sl) : Heap UInt8 × Sl := h.append g emptySl (buf.view h)

/-- packet.go:123-128 `NewNALSink`. -/
def hNewNALSink (m : Mem) : Mem × HSink :=
  (⟨m.b, (m.u.make 20).1, (m.f.make 20).1⟩, ⟨(m.u.make 20).2, (m.f.make 20).2, 0⟩)

/-- packet.go:173, 203, 249: a unit is added. -/
def hAddUnit (g : Nat → Nat) (m : Mem) (s : HSink) (u : HUnit) : Mem × HSink :=
  ({ m with u := (m.u.append g s.units [u]).1 }, { s with units := (m.u.append g s.units [u]).2 })

/-- packet.go:149-152: the data of all fragments in one slice. -/
def hCombine (g : Nat → Nat) (h : Heap UInt8) (data : Sl) : List HFrag → Heap UInt8 × Sl
  | [] => (h, data)
  | f :: fs => hCombine g (h.append g data (f.unit.data.view h)).1 (h.append g data (f.unit.data.view h)).2 fs

/-- packet.go:133-155 `AddFragment`. -/
def hAddFragment (g : Nat → Nat) (m : Mem) (s : HSink) (indicator header : UInt8) (don ts : Nat) (data : Sl) : Mem × HSink :=
  let s := if (header &&& 0x80) != 0 then { s with fragments := { s.fragments with len := 0 } } else s
  let fr := m.f.append g s.fragments [⟨⟨indicator, don, ts, data⟩, header⟩]
  let m := { m with f := fr.1 }
  let s := { s with fragments := fr.2 }
  if (header &&& 0x40) != 0 then
    let d := hCombine g m.b emptySl (s.fragments.view m.f)
    hAddUnit g { m with b := d.1 } s ⟨indicator, don, ts, d.2⟩
  else (m, s)

/-- packet.go:165-176: loop of `parseSTAP`. The first argument bounds the iterations. -/
def hStapLoop (g : Nat → Nat) : Nat → Mem → HSink → Sl → Nat → Go (Option H264Err × Mem × HSink)
  | 0, _, _, _, _ => .error .fuel
  | fuel + 1, m, s, buf, ts =>
    if buf.len < 2 then .ok (none, m, s)
    else
      match beU16 (buf.view m.b) with
      | .error p => .error p
      | .ok size =>
        if buf.len < u16 (size + 2) then .ok (some .packetTooShort, m, s)
        else
          match idx (buf.view m.b) 2 with
          | .error p => .error p
          | .ok h =>
            match buf.sub 3 (u16 (size + 2)) with
            | .error p => .error p
            | .ok d =>
              match buf.from (u16 (size + 2)) with
              | .error p => .error p
              | .ok rest =>
                hStapLoop g fuel (hAddUnit g m s ⟨h, s.don, ts, d⟩).1 { (hAddUnit g m s ⟨h, s.don, ts, d⟩).2 with don := u16 (s.don + 1) } rest ts

/-- packet.go:157-177 `parseSTAP`. -/
def hParseSTAP (g : Nat → Nat) (typ : UInt8) (m : Mem) (s : HSink) (buf : Sl) (ts : Nat) : Go (Option H264Err × Mem × HSink) :=
  if typ == 25 then
    if buf.len < 2 then .ok (some .packetTooShort, m, s)
    else
      match beU16 (buf.view m.b) with
      | .error p => .error p
      | .ok don =>
        match buf.from 2 with
        | .error p => .error p
        | .ok rest => hStapLoop g (rest.len + 1) m { s with don := don } rest ts
  else hStapLoop g (buf.len + 1) m s buf ts

/-- packet.go:189-206: loop of `parseMTAP`. The first argument bounds the iterations. -/
def hMtapLoop (g : Nat → Nat) : Nat → (typ : UInt8) → (off : Nat) → Mem → HSink → Sl → Nat → Go (Option H264Err × Mem × HSink)
  | 0, _, _, _, _, _, _ => .error .fuel
  | fuel + 1, typ, off, m, s, buf, ts =>
    if buf.len < off then .ok (none, m, s)
    else
      match beU16 (buf.view m.b), idx (buf.view m.b) 2, idx (buf.view m.b) 3, idx (buf.view m.b) 4 with
      | .ok size, .ok dond, .ok t1, .ok t2 =>
        match (if typ == 27 then
            match idx (buf.view m.b) 5 with
            | .error p => .error p
            | .ok t3 => .ok (u32 (u32 (ts <<< 8) + t3.toNat))
          else .ok (u32 (t1.toNat <<< 8 + t2.toNat)) : Go Nat) with
        | .error p => .error p
        | .ok tsoff =>
          if buf.len < u16 (size + off) then .ok (some .packetTooShort, m, s)
          else
            match idx (buf.view m.b) off with
            | .error p => .error p
            | .ok h =>
              match buf.sub (u16 (off + 1)) (u16 (size + off)) with
              | .error p => .error p
              | .ok d =>
                match buf.from (u16 (size + off)) with
                | .error p => .error p
                | .ok rest =>
                  hMtapLoop g fuel typ off (hAddUnit g m s ⟨h, u16 (s.don + dond.toNat), u32 (ts + tsoff), d⟩).1
                    { (hAddUnit g m s ⟨h, u16 (s.don + dond.toNat), u32 (ts + tsoff), d⟩).2 with don := u16 (s.don + 1) } rest ts
      | .error p, _, _, _ => .error p
      | _, .error p, _, _ => .error p
      | _, _, .error p, _ => .error p
      | _, _, _, .error p => .error p

/-- packet.go:179-207 `parseMTAP`. -/
def hParseMTAP (g : Nat → Nat) (typ : UInt8) (m : Mem) (s : HSink) (buf : Sl) (ts : Nat) : Go (Option H264Err × Mem × HSink) :=
  if buf.len < 2 then .ok (some .packetTooShort, m, s)
  else
    match beU16 (buf.view m.b) with
    | .error p => .error p
    | .ok don =>
      match buf.from 2 with
      | .error p => .error p
      | .ok rest =>
        hMtapLoop g (rest.len + 1) typ (if typ == 27 then 2 + 1 + 2 + 1 else 2 + 1 + 2) m { s with don := don } rest ts

/-- packet.go:220-253 `parseNAL`. -/
def hParseNAL (g : Nat → Nat) (m : Mem) (s : HSink) (buf : Sl) (ts : Nat) : Go (Option H264Err × Mem × HSink) :=
  let s := { s with units := { s.units with len := 0 } }
  if buf.len < 1 then .ok (some .packetTooShort, m, s)
  else
  match idx (buf.view m.b) 0, buf.from 1 with
  | .error p, _ => .error p
  | _, .error p => .error p
  | .ok b0, .ok rest =>
    let typ := b0 &&& 0x1F
    if typ == 24 then hParseSTAP g typ m s rest ts
    else if typ == 25 then hParseSTAP g typ m s rest ts
    else if typ == 26 then hParseMTAP g typ m s rest ts
    else if typ == 27 then hParseMTAP g typ m s rest ts
    else if typ == 28 then
      let nri := b0 &&& 0x60
      if buf.len < 2 then .ok (some .packetTooShort, m, s)
      else
        match idx (buf.view m.b) 1, buf.from 2 with
        | .ok b1, .ok d =>
          .ok (none, (hAddFragment g m s (nri + (b1 &&& 0x1F)) b1 s.don ts d).1, (hAddFragment g m s (nri + (b1 &&& 0x1F)) b1 s.don ts d).2)
        | .error p, _ => .error p
        | _, .error p => .error p
    else if typ == 29 then
      let nri := b0 &&& 0x60
      if buf.len < 4 then .ok (some .packetTooShort, m, s)
      else
        match idx (buf.view m.b) 1, buf.from 2, buf.from 4 with
        | .ok b1, .ok d2, .ok d =>
          match beU16 (d2.view m.b) with
          | .ok don =>
            .ok (none, (hAddFragment g m s (nri + (b1 &&& 0x1F)) b1 don ts d).1, (hAddFragment g m s (nri + (b1 &&& 0x1F)) b1 don ts d).2)
          | .error p => .error p
        | .error p, _, _ => .error p
        | _, .error p, _ => .error p
        | _, _, .error p => .error p
    else
      .ok (none, (hAddUnit g m s ⟨b0, s.don, ts, rest⟩).1, { (hAddUnit g m s ⟨b0, s.don, ts, rest⟩).2 with don := u16 (s.don + 1) })

/-- packet.go:212-216: loop of `Push`. -/
def hPushLoop (g : Nat → Nat) (m : Mem) (s : HSink) (ts : Nat) : List Sl → Go (Option H264Err × Mem × HSink)
  | [] => .ok (none, m, s)
  | nal :: nals =>
    match hParseNAL g m s nal ts with
    | .error p => .error p
    | .ok (some e, m, s) => .ok (some e, m, s)
    | .ok (none, m, s) => hPushLoop g m s ts nals

/-- packet.go:210-218 `Push`. -/
def hPush (g : Nat → Nat) (m : Mem) (s : HSink) (buf : Sl) (ts : Nat) : Go (Option H264Err × Mem × HSink) :=
  match hSplitAnnexB g m.b buf with
  | .error p => .error p
  | .ok (b, nals) => hPushLoop g { m with b := b } s ts nals

end Ouro
