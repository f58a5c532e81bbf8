import Verif.Model.Message
/-!
# Model of RTSP over HTTP: net/rtsp/http.go, and `Dial` and `Write` of net/rtsp/connection.go for that protocol

Parsing of the address, name resolution and connecting (connection.go:57-77) are left out: `dialHTTP` starts with an open
connection. Deadlines are left out. `encoding/base64` is in Go/Strings.
-/
namespace Ouro

/-- http.go:12-47 `ConnectHTTP` -/
def connectHTTP (verb uri cookie : Bytes) : Bytes :=
  verb ++ b!" " ++ uri ++ b!" HTTP/1.0" ++ crnl ++
  headerLine b!"X-SessionCookie" cookie ++
  headerLine b!"Accept" b!"application/x-rtsp-tunnelled" ++
  headerLine b!"Pragma" b!"no-cache" ++
  headerLine b!"Cache-Control" b!"no-store" ++
  (if verb = b!"POST" then headerLine b!"Content-Length" b!"32767" else []) ++
  headerLine b!"User-Agent" b!"Ouro/1.0" ++ crnl

/-- http.go:76-89: the loop over the header lines; `fuel` as in `headerLoop` (Model/Message). -/
def httpHeaderLoop : Nat → Rdr → Option MsgErr × Rdr
  | 0, r => (some (.io .eof), r)
  | fuel + 1, r =>
    match r.readLine with
    | (.error e, r) => (some (.io e), r)
    | (.ok line, r) =>
      if trimSpace line = [] then (none, r)
      else if (splitN2 58 (trimSpace line)).length ≠ 2 then (some .malformed, r)
      else httpHeaderLoop fuel r

/-- http.go:50-92 `ReceiveHTTP`; the status line is read in the same way as in message.go:117-139. -/
def receiveHTTP (r : Rdr) : Option MsgErr × Rdr :=
  match r.readLine with
  | (.error e, r) => (some (.io e), r)
  | (.ok line, r) =>
    match statusLine b!"HTTP/1.0" line with
    | .error e => (some e, r)
    | .ok _ => httpHeaderLoop (r.buf.length + r.net.length + 1) r

/-- connection.go:18-31 `Conn`, what RTSP over HTTP uses: what was written to `conn` and to `post` (if it is not nil) so far, one element for
each call of its `Write`. -/
structure HConn where
  uri : Bytes
  guid : Bytes
  rdr : Rdr
  conn : List Bytes := []
  post : Option (List Bytes) := none
  connected : Bool := false

/-- connection.go:79-103: the rest of `Dial` for the HTTP protocol, once connected. `w`: whether writing succeeds. -/
def dialHTTP (w : Bytes → Bool) (uri guid : Bytes) (r : Rdr) : Except MsgErr HConn :=
  if w (connectHTTP b!"GET" uri guid) then
    match receiveHTTP r with
    | (some e, _) => .error e
    | (none, r) => .ok { uri, guid, rdr := r, conn := [connectHTTP b!"GET" uri guid] }
  else .error (.io .reset)

/-- The loop of the `Write` of the base64 encoder, for connection.go:119-121: whole groups of three bytes, at most 768 bytes at a time. The result: what was written, the bytes
left over, and whether all writes succeeded. The first argument bounds the number of turns. -/
def encLoop (w : List Bytes → Bytes → Bool) : Nat → List Bytes → Bytes → List Bytes × Bytes × Bool
  | 0, out, p => (out, p, true)
  | fuel + 1, out, p =>
    if p.length < 3 then (out, p, true)
    else
      let nn := if 768 > p.length then p.length - p.length % 3 else 768
      if w out (b64Encode (p.take nn)) then encLoop w fuel (out ++ [b64Encode (p.take nn)]) (p.drop nn)
      else (out, p, false)

/-- connection.go:119-121: a new encoder, its `Write`, and the deferred `Close` that writes the bytes left over and whose result is dropped. The
result: what was written, and whether there was no error. -/
def encWrite (w : List Bytes → Bytes → Bool) (out : List Bytes) (p : Bytes) : List Bytes × Bool :=
  match encLoop w p.length out p with
  | (out, _, false) => (out, false)
  | (out, [], true) => (out, true)
  | (out, rest, true) => (if w out (b64Encode rest) then out ++ [b64Encode rest] else out, true)

/-- connection.go:106-122 `Write` for the HTTP protocol. `w`: whether writing to `post` succeeds, given what was written before; a write that fails
writes nothing here. The result: the connection and whether there was no error. -/
def httpWrite (w : List Bytes → Bytes → Bool) (c : HConn) (p : Bytes) : Go (HConn × Bool) :=
  match c.post with
  | none => .error .nilDeref
  | some out =>
    if c.connected then
      let r := encWrite w out p
      .ok ({ c with post := some r.1 }, r.2)
    else if w out (connectHTTP b!"POST" c.uri c.guid) then
      let r := encWrite w (out ++ [connectHTTP b!"POST" c.uri c.guid]) p
      .ok ({ c with post := some r.1, connected := true }, r.2)
    else .ok (c, false)

/-- Several writes (connection.go:106-122), one after the other, whether or not they succeed; the results of all. -/
def httpWrites (w : List Bytes → Bytes → Bool) (c : HConn) : List Bytes → Go (HConn × List Bool)
  | [] => .ok (c, [])
  | p :: ps =>
    match httpWrite w c p with
    | .error x => .error x
    | .ok (c, b) =>
      match httpWrites w c ps with
      | .error x => .error x
      | .ok (c, bs) => .ok (c, b :: bs)

end Ouro
