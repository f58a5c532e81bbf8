import Verif.Go.Strings
/-!
# Specification: structure of a session description (RFC 4566)

Lines, media sections, and the attribute lines a camera sends (RFC 4566 `rtpmap`, `fmtp`; RFC 2326 `control`; RFC 6184
`sprop-parameter-sets`).
-/
namespace Ouro.Spec

/-- The line, without surrounding white space, starts with `m=`. -/
def isMLine (line : Bytes) : Bool := (b!"m=").isPrefixOf (trimSpace line)

/-- It announces video: `m=video`, followed by a space. -/
def isVideoLine (line : Bytes) : Bool := (b!"m=video ").isPrefixOf (trimSpace line)

/-- The media sections of a document: every `m=` line with the lines up to the next one. Lines before the first `m=`
line (the session part) belong to none. -/
def sections : List Bytes → List (List Bytes)
  | [] => []
  | l :: ls => if isMLine l then (l :: ls.takeWhile (fun x => !isMLine x)) :: sections ls else sections ls

/-- The video sections. -/
def videoSections (lines : List Bytes) : List (List Bytes) :=
  (sections lines).filter fun s => match s with | [] => false | l :: _ => isVideoLine l

/-- Lines put together again. -/
def unlines : List Bytes → Bytes
  | [] => []
  | [l] => l
  | l :: ls => l ++ 10 :: unlines ls

/-- An attribute line of a video section. -/
inductive Attr
  /-- `a=rtpmap:<pt> H264/<clock>` -/
  | rtpmap (pt clock : Nat)
  /-- `a=control:<url>` -/
  | control (url : Bytes)
  /-- `a=fmtp:<pt> packetization-mode=<mode>; ...; sprop-parameter-sets=<sets>`: parameters as name and value -/
  | fmtp (pt : Nat) (params : List (Bytes × Bytes))

/-- `name=value` joined by `; `. -/
def paramText : List (Bytes × Bytes) → Bytes
  | [] => []
  | [(k, v)] => k ++ 61 :: v
  | (k, v) :: t => k ++ 61 :: v ++ b!"; " ++ paramText t

def Attr.line : Attr → Bytes
  | .rtpmap pt clock => b!"a=rtpmap:" ++ natDigits pt ++ b!" H264/" ++ natDigits clock
  | .control url => b!"a=control:" ++ url
  | .fmtp pt params => b!"a=fmtp:" ++ natDigits pt ++ 32 :: paramText params

/-- The value of `sprop-parameter-sets`: the base64 of each parameter set, separated by commas. -/
def spropText : List Bytes → Bytes
  | [] => []
  | [s] => b64Encode s
  | s :: t => b64Encode s ++ 44 :: spropText t

/-- A printable character other than space. -/
def graphic (c : UInt8) : Bool := 33 ≤ c && c ≤ 126

/-- The text between the first and the second slash of `s`, if there is one, is not a number. -/
def NoClock (s : Bytes) : Prop := ∀ a, (split 47 s)[1]? = some a → (atoi a).2 ≠ none

/-- A well-formed attribute line of the kind the parser is made for: numbers fit an `int`; a control URL or parameter
value is printable, has no semicolon, and does not have a number after its first slash; there are at least two
parameters. -/
def Attr.WF : Attr → Prop
  | .rtpmap pt clock => pt < 2 ^ 63 ∧ clock < 2 ^ 63
  | .control url => (∀ c ∈ url, graphic c = true ∧ c ≠ 59) ∧ NoClock (b!"control:" ++ url)
  | .fmtp _ params => 2 ≤ params.length ∧ (∀ p ∈ params, (p.1 ≠ [] ∧ ∀ c ∈ p.1, graphic c = true ∧ c ≠ 61 ∧ c ≠ 59 ∧ c ≠ 47 ∧ c ≠ 58) ∧
      ∀ c ∈ p.2, graphic c = true ∧ c ≠ 59) ∧ NoClock (paramText params)

/-- Payload type and clock rate of the last `rtpmap` line. -/
def lastRtpmap : List Attr → Option (Nat × Nat)
  | [] => none
  | .rtpmap pt clock :: t => (lastRtpmap t).or (some (pt, clock))
  | _ :: t => lastRtpmap t

/-- URL of the last `control` line. -/
def lastControl : List Attr → Option Bytes
  | [] => none
  | .control url :: t => (lastControl t).or (some url)
  | _ :: t => lastControl t

/-- All values of `sprop-parameter-sets`, in order. -/
def spropValues : List Attr → List Bytes
  | [] => []
  | .fmtp _ params :: t => (params.filter fun p => p.1 = b!"sprop-parameter-sets").map (·.2) ++ spropValues t
  | _ :: t => spropValues t

/-- Whether two lines are of the same kind. -/
def Attr.sameKind : Attr → Attr → Bool
  | .rtpmap .., .rtpmap .. => true
  | .control .., .control .. => true
  | .fmtp .., .fmtp .. => true
  | _, _ => false

end Ouro.Spec
