import Verif.Go.Strings
/-! # Model of net/hls/playlist.go

`D` is the type of durations (float64) and `fmt` their decimal text (`strconv.FormatFloat`); both are abstract. -/
namespace Ouro

/-- playlist.go:20-24 `Segment`. -/
structure Segment (D : Type) where
  duration : D
  position : Int
  length : Int

/-- playlist.go:30-38 `Playlist`. `FileName` and `SegSize` are never read and left out. -/
structure Playlist (D : Type) where
  version : Int
  uri : Bytes
  segments : List (Segment D)
  first : Int
  last : Int

/-- `a[i]` for a signed index. -/
def idxInt {α : Type} (l : List α) (i : Int) : Go α := if 0 ≤ i then idx l i.toNat else .error .index

/-- `a[i] = x` for a signed index. -/
def setInt {α : Type} (l : List α) (i : Int) (x : α) : Go (List α) :=
  if 0 ≤ i ∧ i.toNat < l.length then .ok (l.set i.toNat x) else .error .index

/-- `a % b`, truncated, as in playlist.go:69 and 98. -/
def modInt (a b : Int) : Go Int := if b = 0 then .error .divZero else .ok (a.tmod b)

/-- playlist.go:42-58 `NewPlaylist`, for a URI that parses and a number of segments that is not negative (`make` panics for one that is); `uri` is the result of joining it with the file name and `zero` is
the duration 0. -/
def newPlaylist {D : Type} (zero : D) (uri : Bytes) (nseg : Nat) : Playlist D :=
  { version := 4, uri := uri, segments := List.replicate nseg ⟨zero, 0, 0⟩, first := -1, last := -1 }

/-- playlist.go:71-80: the three lines of a segment. -/
def segmentText {D : Type} (fmt : D → Bytes) (uri : Bytes) (seg : Segment D) : Bytes :=
  b!"#EXTINF:" ++ fmt seg.duration ++ 10 :: b!"#EXT-X-BYTERANGE:" ++ itoa seg.length ++ 64 :: itoa seg.position ++
    10 :: uri ++ [10]

/-- The loop, playlist.go:69-85. There are `len(Segments)` indices, so a loop that runs longer never ends. -/
def playlistLoop {D : Type} (fmt : D → Bytes) (pl : Playlist D) : Nat → Int → Go Bytes
  | 0, _ => .error .fuel
  | fuel + 1, i => do
    let seg ← idxInt pl.segments i
    if i = pl.last then pure (segmentText fmt pl.uri seg)
    else
      let i ← modInt (i + 1) pl.segments.length
      let rest ← playlistLoop fmt pl fuel i
      pure (segmentText fmt pl.uri seg ++ rest)

/-- playlist.go:61-89 `String`. -/
def playlistString {D : Type} (fmt : D → Bytes) (pl : Playlist D) : Go Bytes := do
  let body ← (if pl.first ≥ 0 then playlistLoop fmt pl (pl.segments.length + 1) pl.first else pure [] : Go Bytes)
  pure (b!"#EXTM3U" ++ 10 :: b!"#EXT-X-VERSION:" ++ itoa pl.version ++ 10 :: body ++ b!"#EXT-X-ENDLIST" ++ [10])

/-- playlist.go:95-97: where the next segment starts. -/
def nextPosition {D : Type} (pl : Playlist D) : Go Int :=
  if pl.last ≥ 0 then do
    let s ← idxInt pl.segments pl.last
    pure (i64 (s.position + s.length))
  else pure 0

/-- playlist.go:93-107 `AddSegment`. -/
def addSegment {D : Type} (pl : Playlist D) (duration : D) (length : Int) : Go (Playlist D) := do
  let pos ← nextPosition pl
  let last ← modInt (pl.last + 1) pl.segments.length
  let segs ← setInt pl.segments last ⟨duration, pos, length⟩
  let first := if pl.first = last then pl.first + 1 else if pl.first < 0 then last else pl.first
  pure { pl with segments := segs, last := last, first := first }

/-- Any number of calls of `AddSegment` (playlist.go:93). -/
def addSegments {D : Type} (pl : Playlist D) : List (D × Int) → Go (Playlist D)
  | [] => pure pl
  | x :: t => do
    let pl ← addSegment pl x.1 x.2
    addSegments pl t

end Ouro
