import Verif.Go.Strings
/-! # Specification: what the playlist shows after a history of segments -/
namespace Ouro.Spec

/-- A segment as listed: duration, start and length. -/
structure Listed (D : Type) where
  duration : D
  start : Int
  length : Int

/-- All segments of a history, oldest first: each starts where the one before it ended, the first at `pos`. -/
def listed {D : Type} (pos : Int) : List (D × Int) → List (Listed D)
  | [] => []
  | (d, l) :: t => ⟨d, pos, l⟩ :: listed (pos + l) t

/-- Bytes of all segments. -/
def total {D : Type} : List (D × Int) → Int
  | [] => 0
  | (_, l) :: t => l + total t

/-- The last `n` elements. -/
def newest {α : Type} (n : Nat) (l : List α) : List α := l.drop (l.length - n)

/-- The lines of a segment (RFC 8216: EXTINF, EXT-X-BYTERANGE `length@start`, URI). -/
def segmentLines {D : Type} (fmt : D → Bytes) (uri : Bytes) (s : Listed D) : List Bytes :=
  [b!"#EXTINF:" ++ fmt s.duration, b!"#EXT-X-BYTERANGE:" ++ itoa s.length ++ b!"@" ++ itoa s.start, uri]

/-- The lines of a playlist of version 4. -/
def playlistLines {D : Type} (fmt : D → Bytes) (uri : Bytes) (segs : List (Listed D)) : List Bytes :=
  [b!"#EXTM3U", b!"#EXT-X-VERSION:4"] ++ segs.flatMap (segmentLines fmt uri) ++ [b!"#EXT-X-ENDLIST"]

/-- Text of lines, each ended by a newline. -/
def text (lines : List Bytes) : Bytes := lines.flatMap (· ++ [10])

end Ouro.Spec
