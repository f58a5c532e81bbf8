import Verif.Model.Sdp
import Verif.Model.ParamSets
/-! # Model of net/rtsp/transport.go and net/rtsp/feed.go -/
namespace Ouro

/-- transport.go:26-29 `Pair` -/
structure Pair where
  one : Int := 0
  two : Int := 0
  deriving DecidableEq, Repr

/-- transport.go:32-47 `Transport` -/
structure Transport where
  isTCP : Bool := false
  isMulticast : Bool := false
  isInterleaved : Bool := false
  isAppend : Bool := false
  interleave : Pair := {}
  port : Pair := {}
  clientPort : Pair := {}
  serverPort : Pair := {}
  layers : Int := 0
  ttl : Int := 0
  destination : Bytes := []
  source : Bytes := []
  ssrc : Bytes := []
  mode : Bytes := []
  deriving DecidableEq, Repr

/-- definitions.go `ProtoTCP`, `ProtoUnicast`, `ProtoMulticast`, `ProtoHTTP`: the lower protocols a session may be asked for. -/
inductive Proto
  | tcp
  | unicast
  | multicast
  | http
  deriving DecidableEq, Repr

/-- transport.go:21 -/
def firstUDPPort : Int := 50000

/-- transport.go:76-95 `NewTransport`. Simplification: `proto` is one of the four constants; for any other `int` the code leaves
the defaults. -/
def newTransport (proto : Proto) (port : Int) : Transport :=
  let t : Transport := { isAppend := false, mode := b!"PLAY" }
  match proto with
  | .tcp | .http => { t with isTCP := true, isInterleaved := true, interleave := ⟨port, i64 (port + 1)⟩ }
  | .unicast =>
    let port := i64 (firstUDPPort + port)
    { t with clientPort := ⟨port, i64 (port + 1)⟩ }
  | .multicast =>
    let port := i64 (firstUDPPort + port)
    { t with isMulticast := true, port := ⟨port, i64 (port + 1)⟩ }

/-- transport.go:258-260 `Pair.String` -/
def Pair.string (p : Pair) : Bytes := itoa p.one ++ b!"-" ++ itoa p.two

/-- transport.go:98-156 `Transport.String` -/
def Transport.string (t : Transport) : Bytes :=
  b!"RTP/AVP" ++
  (if t.isTCP then b!"/TCP" else if t.isMulticast then b!";multicast" else b!";unicast") ++
  (if t.destination ≠ [] then b!";destination=" ++ t.destination else []) ++
  (if t.source ≠ [] then b!";source=" ++ t.source else []) ++
  (if t.isInterleaved then b!";interleaved=" ++ t.interleave.string else []) ++
  (if t.isAppend then b!";append" else []) ++
  (if t.port.one > 0 then b!";port=" ++ t.port.string else []) ++
  (if t.clientPort.one > 0 then b!";client_port=" ++ t.clientPort.string else []) ++
  (if t.serverPort.one > 0 then b!";server_port=" ++ t.serverPort.string else []) ++
  (if t.isMulticast ∧ t.ttl > 0 then b!";ttl=" ++ itoa t.ttl else []) ++
  (if t.layers > 0 then b!";layers=" ++ itoa t.layers else []) ++
  (if t.ssrc ≠ [] then b!";ssrc=" ++ t.ssrc else []) ++
  (if t.mode ≠ [] ∧ t.mode ≠ b!"PLAY" then b!";mode=" ++ t.mode else [])

/-- transport.go:245-255 `ParsePair`; `parts[0]` exists, as `strings.Split` never returns an empty slice. -/
def parsePair (val : Bytes) : Pair × Option NumErr :=
  match split 45 val with
  | [] => ({}, none)
  | p0 :: rest =>
    match atoi p0, rest with
    | (one, none), p1 :: _ =>
      match atoi p1 with
      | (two, none) => (⟨one, two⟩, none)
      | (_, some e) => (⟨one, i64 (one + 1)⟩, some e)
    | (one, e), _ => (⟨one, 0⟩, e)

/-- The errors of `Transport.Parse`: `ErrMalformedTransport` (transport.go:19) or one of `strconv`. -/
inductive TranspErr
  | malformed
  | num (e : NumErr)
  deriving DecidableEq, Repr

/-- The pattern `if len(keyval) > 1 { … } else { err = ErrMalformedTransport }` of transport.go:174-235; `val` is `keyval[1]` if it
exists. -/
def withVal (t : Transport) (val : Option Bytes) (f : Bytes → Transport × Option NumErr) : Transport × Option TranspErr :=
  match val with
  | none => (t, some .malformed)
  | some v => ((f v).1, (f v).2.map .num)

/-- transport.go:168-236: the switch on the lower-cased key. -/
def transpKey (t : Transport) (key : Bytes) (val : Option Bytes) : Transport × Option TranspErr :=
  if key = b!"unicast" then ({ t with isMulticast := false }, none)
  else if key = b!"multicast" then ({ t with isMulticast := true }, none)
  else if key = b!"destination" then withVal t val fun v => ({ t with destination := v }, none)
  else if key = b!"source" then withVal t val fun v => ({ t with source := v }, none)
  else if key = b!"interleaved" then
    withVal { t with isMulticast := false } val fun v =>
      ({ t with isMulticast := false, interleave := (parsePair v).1 }, (parsePair v).2)
  else if key = b!"append" then ({ t with isAppend := true }, none)
  else if key = b!"layers" then withVal t val fun v => ({ t with layers := (atoi v).1 }, (atoi v).2)
  else if key = b!"ttl" then withVal t val fun v => ({ t with ttl := (atoi v).1 }, (atoi v).2)
  else if key = b!"port" then withVal t val fun v => ({ t with port := (parsePair v).1 }, (parsePair v).2)
  else if key = b!"client_port" then withVal t val fun v => ({ t with clientPort := (parsePair v).1 }, (parsePair v).2)
  else if key = b!"server_port" then withVal t val fun v => ({ t with serverPort := (parsePair v).1 }, (parsePair v).2)
  else if key = b!"ssrc" then withVal t val fun v => ({ t with ssrc := v }, none)
  else if key = b!"mode" then withVal t val fun v => ({ t with mode := v }, none)
  else (t, none)

/-- transport.go:162-166: a field with exactly two slashes names the lower protocol. -/
def transpLower (t : Transport) (field : Bytes) : Transport :=
  match split 47 field with
  | [_, _, low] => { t with isTCP := toUpper low = b!"TCP" }
  | _ => t

/-- transport.go:162-236: one field. -/
def transpField (t : Transport) (field : Bytes) : Transport × Option TranspErr :=
  match splitN2 61 field with
  | key :: val :: _ => transpKey (transpLower t field) (toLower key) (some val)
  | key :: [] => transpKey (transpLower t field) (toLower key) none
  | [] => (transpLower t field, none)

/-- transport.go:161-241: the loop over the fields, left at the first error. -/
def transpFields (t : Transport) : List Bytes → Transport × Option TranspErr
  | [] => (t, none)
  | f :: fs =>
    match transpField t f with
    | (t', some e) => (t', some e)
    | (t', none) => transpFields t' fs

/-- transport.go:159-242 `Transport.Parse` -/
def Transport.parse (t : Transport) (value : Bytes) : Transport × Option TranspErr := transpFields t (split 59 value)

/-- feed.go:11-17 `Feed` -/
structure Feed where
  media : Media
  transp : Transport
  cseq : Int := 0
  isSet : Bool := false
  sets : ParameterSets

/-- feed.go:22: the `i`-th media gets `NewTransport(proto, i*2)`; `i` counts from `k`. -/
def feedsFrom (proto : Proto) (k : Nat) : List Media → List Feed
  | [] => []
  | m :: ms => { media := m, transp := newTransport proto (i64 (k * 2)), sets := newParameterSets } :: feedsFrom proto (k + 1) ms

/-- feed.go:21-26 `ParseFeeds`; its error is always nil. -/
def parseFeeds (proto : Proto) (buf : Bytes) : Go (List Feed) := do
  let ms ← sdpParse buf
  pure (feedsFrom proto 0 ms)

/-- feed.go:29-31 `TransportHeader` -/
def Feed.transportHeader (f : Feed) : Bytes := f.transp.string

/-- The errors of `TransportSetup`, feed.go:34-46. -/
inductive FeedErr
  | transp (e : TranspErr)
  | sprop (e : H264Err)
  deriving DecidableEq, Repr

/-- feed.go:39-43: the loop over the parameter sets of the description. -/
def spropLoop (inf : Nat) (s : ParameterSets) : List Bytes → Go (ParameterSets × Option H264Err)
  | [] => pure (s, none)
  | b :: bs => do
    let (e, s) ← parseSprop inf s b
    match e with
    | some e => pure (s, some e)
    | none => spropLoop inf s bs

/-- feed.go:34-46 `TransportSetup`. `inf` is the parameter of `parsePPS` (see Model/ParamSets). -/
def Feed.transportSetup (inf : Nat) (f : Feed) (value : Bytes) : Go (Feed × Option FeedErr) :=
  match f.transp.parse value with
  | (t, some e) => pure ({ f with transp := t }, some (.transp e))
  | (t, none) => do
    let (s, e) ← spropLoop inf f.sets f.media.spropParameterSets
    match e with
    | some e => pure ({ f with transp := t, sets := s }, some (.sprop e))
    | none => pure ({ f with transp := t, sets := s, isSet := true }, none)

end Ouro
