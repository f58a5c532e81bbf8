import Verif.Go.Bufio
/-!
# Model of net/rtsp/message.go and of the reading methods of net/rtsp/connection.go

Deadlines (`SetReadDeadline`) are not modelled: a read deadline may expire at any `timeout` event of the connection.
-/
namespace Ouro

/-! ## Header maps -/

/-- `validHeaderFieldByte` of net/textproto, for message.go:49, 57 and 66: the token characters of RFC 7230. -/
def isToken (c : UInt8) : Bool :=
  isDigit c || (65 ≤ c && c ≤ 90) || (97 ≤ c && c ≤ 122) || b!"!#$%&'*+-.^_`|~".contains c

/-- The loop of `textproto.CanonicalMIMEHeaderKey`, for message.go:49, 57 and 66: upper case at the start and after a hyphen, else lower case. -/
def canonLoop (up : Bool) : Bytes → Bytes
  | [] => []
  | c :: t => (if up then upper1 c else lower1 c) :: canonLoop (c = 45) t

/-- `textproto.CanonicalMIMEHeaderKey`, used in message.go:49, 57 and 66: a string with other than token characters is returned unchanged. -/
def canonKey (s : Bytes) : Bytes := if s.all isToken then canonLoop true s else s

/-- message.go:12 `MessageHeader`: a map, as a list of its entries with different keys. -/
abbrev Header := List (Bytes × Bytes)

/-- message.go:48-50 `Set` -/
def Header.set (h : Header) (key value : Bytes) : Header := h.filter (fun e => e.1 ≠ canonKey key) ++ [(canonKey key, value)]

/-- Look a key up in a map, as in message.go:57. -/
def Header.at (h : Header) (key : Bytes) : Option Bytes := (h.find? (fun e => e.1 = key)).map (·.2)

/-- message.go:53-62 `Get` -/
def Header.get (h : Header) (key : Bytes) : Bytes := (h.at (canonKey key)).getD []

/-- message.go:65-67 `Del` -/
def Header.del (h : Header) (key : Bytes) : Header := h.filter (fun e => e.1 ≠ canonKey key)

/-! ## Requests -/

/-- message.go:18-25 `Request` -/
structure Request where
  verb : Bytes
  cseq : Int := 0
  uri : Bytes
  auth : Bytes := []
  session : Bytes := []
  header : Header := []
  deriving DecidableEq, Repr

/-- message.go:43 -/
def crnl : Bytes := [13, 10]
/-- message.go:44 -/
def colsp : Bytes := [58, 32]

/-- definitions.go:17 -/
def verbOptions : Bytes := b!"OPTIONS"
/-- definitions.go:27 -/
def verbSetup : Bytes := b!"SETUP"

/-- One header line, message.go:82-85 and the like. -/
def headerLine (key val : Bytes) : Bytes := key ++ colsp ++ val ++ crnl

/-- message.go:70-109 `Request.Pack`. `order` is the order in which Go happens to iterate over the header map: any permutation
of its entries. -/
def Request.pack (r : Request) (order : Header) : Bytes :=
  r.verb ++ b!" " ++ r.uri ++ b!" RTSP/1.0" ++ crnl ++
  headerLine b!"CSeq" (itoa r.cseq) ++
  order.flatMap (fun e => headerLine e.1 e.2) ++
  (if r.session ≠ [] ∧ r.verb ≠ verbOptions ∧ r.verb ≠ verbSetup then headerLine b!"Session" r.session else []) ++
  (if r.auth ≠ [] then headerLine b!"Authorization" r.auth else []) ++
  headerLine b!"User-Agent" b!"Ouro/1.0" ++
  headerLine b!"Content-Length" b!"0" ++ crnl

/-! ## Responses -/

/-- message.go:28-36 `Response`; `body` is `none` for a nil slice. -/
structure Response where
  proto : Bytes
  status : Bytes
  statusCode : Int
  contentLength : Int
  cseq : Int
  header : Header
  body : Option Bytes
  deriving DecidableEq, Repr

/-- The errors of `Unpack`: those of the reader and those of definitions.go:128-130. -/
inductive MsgErr
  | io (e : IOErr)
  | malformed
  | invalidStatus
  | notSupported
  deriving DecidableEq, Repr

/-- connection.go:169-175 `ReadBytes` -/
def Rdr.readBytes (r : Rdr) (n : Nat) : Except IOErr Bytes × Rdr :=
  match r.peek n with
  | (.ok b, r) => (.ok b, r.discard n)
  | (.error e, r) => (.error e, r)

/-- connection.go:147-153 `ReadUint16` -/
def Rdr.readUint16 (r : Rdr) : Except IOErr Nat × Rdr :=
  match r.readFull 2 with
  | (.ok b, r) => (.ok (b.foldl (fun n x => n * 256 + x.toNat) 0), r)
  | (.error e, r) => (.error e, r)

/-- message.go:117-139 and http.go:50-69: the status line; `proto` is the protocol version expected. -/
def statusLine (proto line : Bytes) : Except MsgErr (Bytes × Int) :=
  match cut 32 line with
  | none => .error .malformed
  | some (p, rest) =>
    if p ≠ proto then .error .notSupported
    else
      let status := trimSpace rest
      let code := match cut 32 status with
        | some (c, _) => c
        | none => status
      if code.length ≠ 3 then .error .invalidStatus
      else match atoi code with
        | (n, none) => if n < 0 then .error .invalidStatus else .ok (status, n)
        | (_, some _) => .error .invalidStatus

/-- message.go:142-155: the loop over the header lines. `fuel` bounds the number of lines; every line takes an event of the
connection or a buffered byte, so the length of both suffices. -/
def headerLoop : Nat → Rdr → Header → Except MsgErr Header × Rdr
  | 0, r, _ => (.error (.io .eof), r)
  | fuel + 1, r, h =>
    match r.readLine with
    | (.error e, r) => (.error (.io e), r)
    | (.ok line, r) =>
      if trimSpace line = [] then (.ok h, r)
      else match splitN2 58 (trimSpace line) with
        | [k, v] => headerLoop fuel r (h.set (trimSpace k) (trimSpace v))
        | _ => (.error .malformed, r)

/-- message.go:159-163: the content length, 0 if it is missing or not a number. -/
def contentLen (v : Bytes) : Int :=
  match atoi v with
  | (n, none) => n
  | (_, some _) => 0

/-- message.go:112-170 `Unpack`. Simplification: the response returned together with an error of reading the body is left out;
the only caller ignores it. -/
def unpackRsp (r : Rdr) : Except MsgErr Response × Rdr :=
  match r.readLine with
  | (.error e, r) => (.error (.io e), r)
  | (.ok line, r) =>
    match statusLine b!"RTSP/1.0" line with
    | .error e => (.error e, r)
    | .ok (status, code) =>
      match headerLoop (r.buf.length + r.net.length + 1) r [] with
      | (.error e, r) => (.error e, r)
      | (.ok h, r) =>
        let cl := contentLen (h.get b!"Content-Length")
        let rsp : Response := { proto := b!"RTSP/1.0", status, statusCode := code, contentLength := cl,
                                cseq := (atoi (h.get b!"CSeq")).1, header := h, body := none }
        if cl > 0 then
          match r.readBytes cl.toNat with
          | (.error e, r) => (.error (.io e), r)
          | (.ok b, r) => (.ok { rsp with body := some b }, r)
        else (.ok rsp, r)

/-- message.go:173-191 `Response.Pack`; `order` as for `Request.pack`. -/
def Response.pack (r : Response) (order : Header) : Bytes :=
  b!"RTSP/1.0" ++ b!" " ++ r.status ++ crnl ++ order.flatMap (fun e => headerLine e.1 e.2) ++ crnl ++
  (if r.contentLength > 0 then r.body.getD [] ++ crnl else [])

end Ouro
