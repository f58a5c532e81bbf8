import Verif.Go.Basic
/-! # Model of /repo/net/h264/annexb.go -/
namespace Ouro

/-- annexb.go:40-49: loop of `EBSPToRaw`. -/
def ebspLoop (buf : Bytes) (off : Nat) (rbsp : Bytes) : Go Bytes :=
  if _h : off < buf.length then
    match andGo (.ok (decide (buf.length - off ≥ 3))) fun _ =>
        andGo (testAt buf off (· == 0)) fun _ =>
        andGo (testAt buf (off + 1) (· == 0)) fun _ => testAt buf (off + 2) (· == 3) with
    | .error p => .error p
    | .ok true => ebspLoop buf (off + 3) (rbsp ++ [0, 0])
    | .ok false =>
      match idx buf off with
      | .error p => .error p
      | .ok b => ebspLoop buf (off + 1) (rbsp ++ [b])
  else .ok rbsp
  termination_by buf.length - off

/-- annexb.go:36-51 `EBSPToRaw`. -/
def ebspToRaw (buf : Bytes) : Go Bytes := ebspLoop buf 0 []

/-- annexb.go:60-68: loop of `RBSPToEncapsulated`. -/
def rbspLoop (buf : Bytes) (off : Nat) (ebsp : Bytes) : Go Bytes :=
  if _h : off < buf.length then
    match andGo (.ok (decide (buf.length - off ≥ 2))) fun _ =>
        andGo (testAt buf off (· == 0)) fun _ =>
        andGo (testAt buf (off + 1) (· == 0)) fun _ => testAt buf (off + 2) (fun b => decide (b ≤ 3)) with
    | .error p => .error p
    | .ok true =>
      match idx buf (off + 2) with
      | .error p => .error p
      | .ok b => rbspLoop buf (off + 2 + 1) (ebsp ++ [0, 0, 3] ++ [b])
    | .ok false =>
      match idx buf off with
      | .error p => .error p
      | .ok b => rbspLoop buf (off + 1) (ebsp ++ [b])
  else .ok ebsp
  termination_by buf.length - off

/-- annexb.go:55-70 `RBSPToEncapsulated`. -/
def rbspToEncapsulated (buf : Bytes) : Go Bytes := rbspLoop buf 0 []

/-- Append `EBSPToRaw(s)` to the units (annexb.go:19, 22, 30). -/
def appendUnit (units : List Bytes) (s : Go Bytes) : Go (List Bytes) :=
  match s with
  | .error p => .error p
  | .ok s =>
    match ebspToRaw s with
    | .error p => .error p
    | .ok u => .ok (units ++ [u])

/-- annexb.go:17-23: the unit that ends at a start code found at `off`. -/
def splitEmit (buf : Bytes) (off prev : Nat) (units : List Bytes) : Go (List Bytes) :=
  match andGo (.ok (decide (off > 0))) fun _ => testAt buf (off - 1) (· == 0) with
  | .error p => .error p
  | .ok true => if off > prev + 1 then appendUnit units (slice buf prev (off - 1)) else .ok units
  | .ok false => if off > prev then appendUnit units (slice buf prev off) else .ok units

/-- annexb.go:11-30: loop of `SplitAnnexB` and the final append. `end` is `len(buf) - 3`, which may be negative: the test
`off < end` is written `off + 3 < len(buf)`. -/
def splitLoop (buf : Bytes) (off prev : Nat) (units : List Bytes) : Go (List Bytes) :=
  if _h : off + 3 < buf.length then
    match testAt buf (off + 2) (fun b => decide (b > 1)) with
    | .error p => .error p
    | .ok true => splitLoop buf (off + 3) prev units
    | .ok false =>
      match andGo (testAt buf (off + 2) (· == 1)) fun _ =>
          andGo (testAt buf (off + 1) (· == 0)) fun _ => testAt buf off (· == 0) with
      | .error p => .error p
      | .ok true =>
        match splitEmit buf off prev units with
        | .error p => .error p
        | .ok units => splitLoop buf (off + 3) (off + 3) units
      | .ok false => splitLoop buf (off + 1) prev units
  else appendUnit units (sliceFrom buf prev)
  termination_by buf.length - off

/-- annexb.go:7-32 `SplitAnnexB`. -/
def splitAnnexB (buf : Bytes) : Go (List Bytes) := splitLoop buf 0 0 []

end Ouro
