import Verif.Spec.Hls
import Verif.Spec.TransportField
/-!
# A player of HTTP Live Streaming (RFC 8216)

It reads a media playlist line by line. It is lenient where the standard is not: it does not insist on a target duration, nor on the comma after
a duration.
-/
namespace Ouro.Spec

/-- What the player gets to know of a segment. -/
structure MediaSegment (D : Type) where
  duration : D
  length : Nat
  offset : Nat
  uri : Bytes
  deriving DecidableEq, Repr

/-- What follows a tag, if the line has it. -/
def tagged (tag line : Bytes) : Option Bytes := if tag <+: line then some (line.drop tag.length) else none

/-- RFC 8216, 4.2: a decimal integer, digits only. -/
def decimalInteger (v : Bytes) : Option Nat := if v ≠ [] ∧ (∀ c ∈ v, 48 ≤ c ∧ c ≤ 57) then some (decimal v) else none

/-- RFC 8216, 4.3.2.2: `n@o`. -/
def byteRange (v : Bytes) : Option (Nat × Nat) :=
  match decimalInteger (v.takeWhile (· ≠ 64)), decimalInteger (v.drop ((v.takeWhile (· ≠ 64)).length + 1)) with
  | some n, some o => some (n, o)
  | _, _ => none

/-- The segments that the lines list. `rd` reads a duration; `d` and `r` are the duration and the byte range for the next segment, if they have
been given. Empty lines, comments and other tags are skipped. -/
def readLines {D : Type} (rd : Bytes → Option D) (d : Option D) (r : Option (Nat × Nat)) : List Bytes → Option (List (MediaSegment D))
  | [] => some []
  | l :: ls =>
    match tagged b!"#EXTINF:" l, tagged b!"#EXT-X-BYTERANGE:" l with
    | some v, _ => match rd (v.takeWhile (· ≠ 44)) with
      | none => none
      | some d => readLines rd (some d) r ls
    | none, some v => match byteRange v with
      | none => none
      | some r => readLines rd d (some r) ls
    | none, none =>
      if l = [] ∨ l.head? = some 35 then readLines rd d r ls
      else match d, r with
        | some d, some r => (readLines rd none none ls).map (⟨d, r.1, r.2, l⟩ :: ·)
        | _, _ => none

/-- The lines of a text. -/
def linesOf (s : Bytes) : List Bytes := split 10 s

/-- What a player reads. -/
def readPlaylist {D : Type} (rd : Bytes → Option D) (s : Bytes) : Option (List (MediaSegment D)) :=
  if (linesOf s).head? = some b!"#EXTM3U" then readLines rd none none (linesOf s) else none

/-- RFC 8216, 4.3.3.2: the number of the first segment; 0 if there is no such line. -/
def mediaSequence (s : Bytes) : Nat :=
  match ((linesOf s).filterMap (tagged b!"#EXT-X-MEDIA-SEQUENCE:")).head? with
  | some v => decimal v
  | none => 0

/-- RFC 8216, 4.3.3.1: a playlist must have a target duration, clients reject it otherwise. -/
def HasTargetDuration (s : Bytes) : Prop := ∃ l ∈ linesOf s, (tagged b!"#EXT-X-TARGETDURATION:" l).isSome

/-- RFC 8216, 4.3.2.1: `#EXTINF:<duration>,[<title>]`; the comma must be there. -/
def EveryDurationHasComma (s : Bytes) : Prop := ∀ l ∈ linesOf s, ∀ v, tagged b!"#EXTINF:" l = some v → (44 : UInt8) ∈ v

/-- RFC 8216, 4.3.3.4: no more segments will be added; a player does not ask again. -/
def SaysEnded (s : Bytes) : Prop := b!"#EXT-X-ENDLIST" ∈ linesOf s

end Ouro.Spec
