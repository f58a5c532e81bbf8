import Verif.Model.Hls
/-! # Model of net/hls/playlist.go with two goroutines

One goroutine adds segments, another renders the playlist, as when a recorder writes the file and a web server hands the
playlist out. The package has no locks. Every read and write of a shared word is a step. Simplifications: steps are
sequentially consistent (Go promises less for a data race, so what is refuted here is refuted for Go); `String` has a value
receiver (playlist.go:61), so `First` and `Last` are copied when it is called, here in the order of the fields; the fields
`Version`, `URI` and the slice header of `Segments` never change after `NewPlaylist`. The reads of the goroutine that adds
are not steps of their own: nobody else writes. -/
namespace Ouro

/-- Where the goroutine that adds segments is in `AddSegment` (playlist.go:93-107): between calls, or about to make the
write in this line. -/
inductive Adding (D : Type)
  | idle
  | putDuration (d : D) (pos len : Int)  -- playlist.go:99
  | putPosition (pos len : Int)          -- playlist.go:100
  | putLength (len : Int)                -- playlist.go:101
  | putFirst                             -- playlist.go:102-106

/-- Where the goroutine that renders is in `String` (playlist.go:61-89). `l` is its copy of `Last`, `i` the loop variable. -/
inductive Rendering (D : Type)
  | start
  | gotFirst (first : Int)                                    -- `Last` is not yet copied
  | atSegment (l i : Int) (body : Bytes)                      -- playlist.go:70, nothing copied of `Segments[i]`
  | gotDuration (l i : Int) (body : Bytes) (d : D)
  | gotPosition (l i : Int) (body : Bytes) (d : D) (pos : Int)
  | done (text : Bytes)
  | crashed (p : Panic)

/-- The shared playlist, the segments still to be added, and both goroutines. -/
structure Served (D : Type) where
  pl : Playlist D
  todo : List (D × Int)
  adding : Adding D
  rendering : Rendering D

/-- playlist.go:99-101: a write to a field of `Segments[Last]`. `Last` has just been set to an index in range, so this cannot
panic; a negative index would be seen in `setInt`. -/
def putField {D : Type} (pl : Playlist D) (f : Segment D → Segment D) : Playlist D :=
  { pl with segments := pl.segments.modify pl.last.toNat f }

/-- playlist.go:93-107 `AddSegment`, one write at a time. The first step is `pl.Last = …` (line 98) with the reads before
it (94-97). Simplification: a panic (no slots) stops the goroutine. -/
def addStep {D : Type} (s : Served D) : Served D :=
  match s.adding with
  | .idle =>
    match s.todo with
    | [] => s
    | x :: t =>
      match nextPosition s.pl, modInt (s.pl.last + 1) s.pl.segments.length with
      | .ok pos, .ok last => { s with pl := { s.pl with last := last }, todo := t, adding := .putDuration x.1 pos x.2 }
      | _, _ => { s with todo := [] }
  | .putDuration d pos len => { s with pl := putField s.pl fun g => { g with duration := d }, adding := .putPosition pos len }
  | .putPosition pos len => { s with pl := putField s.pl fun g => { g with position := pos }, adding := .putLength len }
  | .putLength len => { s with pl := putField s.pl fun g => { g with length := len }, adding := .putFirst }
  | .putFirst =>
    { s with
      pl := { s.pl with first := if s.pl.first = s.pl.last then s.pl.first + 1 else if s.pl.first < 0 then s.pl.last else s.pl.first }
      adding := .idle }

/-- playlist.go:63-66 and 87: the lines around the segments. -/
def framed {D : Type} (pl : Playlist D) (body : Bytes) : Bytes :=
  b!"#EXTM3U" ++ 10 :: b!"#EXT-X-VERSION:" ++ itoa pl.version ++ 10 :: body ++ b!"#EXT-X-ENDLIST" ++ [10]

/-- playlist.go:61-89 `String`, one read of a shared word at a time. -/
def renderStep {D : Type} (fmt : D → Bytes) (pl : Playlist D) : Rendering D → Rendering D
  | .start => .gotFirst pl.first
  | .gotFirst first => if first ≥ 0 then .atSegment pl.last first [] else .done (framed pl [])
  | .atSegment l i body =>
    match idxInt pl.segments i with
    | .error p => .crashed p
    | .ok g => .gotDuration l i body g.duration
  | .gotDuration l i body d =>
    match idxInt pl.segments i with
    | .error p => .crashed p
    | .ok g => .gotPosition l i body d g.position
  | .gotPosition l i body d pos =>
    match idxInt pl.segments i with
    | .error p => .crashed p
    | .ok g =>
      if i = l then .done (framed pl (body ++ segmentText fmt pl.uri ⟨d, pos, g.length⟩))
      else
        match modInt (i + 1) pl.segments.length with
        | .error p => .crashed p
        | .ok j => .atSegment l j (body ++ segmentText fmt pl.uri ⟨d, pos, g.length⟩)
  | .done text => .done text
  | .crashed p => .crashed p

/-- Who makes the next step. -/
inductive Who
  | adder
  | renderer
  deriving DecidableEq, Repr

/-- The goroutines take their steps in the order of the schedule. -/
def serve {D : Type} (fmt : D → Bytes) : List Who → Served D → Served D
  | [], s => s
  | .adder :: t, s => serve fmt t (addStep s)
  | .renderer :: t, s => serve fmt t { s with rendering := renderStep fmt s.pl s.rendering }

/-- `String` is called when `AddSegment` has been called for `hist` and is not running; `more` are added from then on. -/
def servedFrom {D : Type} (pl : Playlist D) (more : List (D × Int)) : Served D := ⟨pl, more, .idle, .start⟩

end Ouro
