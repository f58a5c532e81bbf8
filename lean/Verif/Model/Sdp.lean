import Verif.Go.Strings
/-! # Model of net/sdp/packet.go -/
namespace Ouro

/-- packet.go:20-31 `Media`. The unexported field `audio` is always false and is left out. -/
structure Media where
  type : Nat := 0
  timeScale : Int := 0
  control : Bytes := []
  rtpmap : Int := 0
  config : Bytes := []
  spropParameterSets : List Bytes := []
  payloadType : Int := 0
  sizeLength : Int := 0
  indexLength : Int := 0
  deriving DecidableEq, Repr

/-- packet.go:67-72: the switch on the key of a `key:value` field. -/
def sdpColonKey (m : Media) (key val : Bytes) : Media :=
  if key = b!"control" then { m with control := val }
  else if key = b!"rtpmap" then { m with rtpmap := (atoi val).1 }
  else m

/-- packet.go:63-73: `key:value`. -/
def sdpColon (m : Media) (field : Bytes) : Media :=
  match splitN2 58 field with
  | key :: val :: _ => sdpColonKey m key val
  | _ => m

/-- packet.go:74-86: `encoding/clock`. -/
def sdpSlash (m : Media) (field : Bytes) : Media :=
  match split 47 field with
  | key :: k1 :: _ =>
    let m := if toUpper key = b!"MPEG4-GENERIC" then { m with type := 97 }
      else if toUpper key = b!"H264" then { m with type := 96 }
      else m
    match atoi k1 with
    | (i, none) => { m with timeScale := i }
    | (_, some _) => m
  | _ => m

/-- packet.go:94-107: the switch on the key of a format parameter. -/
def sdpParamKey (m : Media) (key val : Bytes) : Media :=
  if key = b!"config" then { m with config := hexDecode val }
  else if key = b!"sizelength" then { m with sizeLength := (atoi val).1 }
  else if key = b!"indexlength" then { m with indexLength := (atoi val).1 }
  else if key = b!"sprop-parameter-sets" then
    { m with spropParameterSets := m.spropParameterSets ++ (split 44 val).map fun f => (b64Decode f).1 }
  else m

/-- packet.go:90-108: one format parameter `key=value`. -/
def sdpParam (m : Media) (field : Bytes) : Media :=
  match splitN2 61 field with
  | [key, val] => sdpParamKey m (trimSpace key) val
  | _ => m

/-- packet.go:87-110: `param;param;...`, only if there is a semicolon. -/
def sdpParams (m : Media) (field : Bytes) : Media :=
  if (split 59 field).length > 1 then (split 59 field).foldl sdpParam m else m

/-- packet.go:62-111: one field of an attribute line. -/
def sdpField (m : Media) (field : Bytes) : Media := sdpParams (sdpSlash (sdpColon m field) field) field

/-- The variables of packet.go:35-37: the feeds so far, and whether `m` points to the last of them (it is nil otherwise). -/
structure SdpState where
  feeds : List Media
  active : Bool

/-- Apply `f` to the last element: writing through `m`, packet.go:62-111. -/
def modifyLast (f : Media → Media) : List Media → List Media
  | [] => []
  | [m] => [f m]
  | m :: n :: t => m :: modifyLast f (n :: t)

/-- packet.go:46-59: an `m=` line; `fields[1]` panics if there is no space in it. -/
def sdpMedia (st : SdpState) (fields : List Bytes) : Go SdpState := do
  let f0 ← idx fields 0
  if f0 = b!"video" then
    let f1 ← idx fields 1
    let mfields := split 32 f1
    let pt ← (if mfields.length ≥ 3 then do
        let f ← idx mfields 2
        pure (atoi f).1
      else pure 0 : Go Int)
    pure ⟨st.feeds ++ [{ payloadType := pt }], true⟩
  else pure ⟨st.feeds, false⟩

/-- packet.go:40-114: one line. -/
def sdpLine (st : SdpState) (line : Bytes) : Go SdpState :=
  match splitN2 61 (trimSpace line) with
  | [key, val] =>
    let fields := splitN2 32 val
    if key = b!"m" then sdpMedia st fields
    else if key = b!"a" then
      if st.active then pure { st with feeds := modifyLast (fun m => fields.foldl sdpField m) st.feeds } else pure st
    else pure st
  | _ => pure st

/-- The loop over the lines, packet.go:39-115. -/
def sdpLines (st : SdpState) : List Bytes → Go SdpState
  | [] => pure st
  | l :: ls => do
    let st ← sdpLine st l
    sdpLines st ls

/-- packet.go:35-117 `Parse`. -/
def sdpParse (buf : Bytes) : Go (List Media) := do
  let st ← sdpLines ⟨[], false⟩ (split 10 buf)
  pure st.feeds

end Ouro
