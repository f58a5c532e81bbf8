import Verif.Go.BufioChunks
import Verif.Model.Main
import Verif.Model.Http
/-!
# The reading code again, over any reader

`Model/Message`, `Model/Receive`, `Model/Http` and `Model/Main` read from an `Rdr`. Here the same functions take the reader's methods as an
argument; with those of `Rdr` they are the ones modelled before (theorems below), with those of `CRdr` they are the program on a connection
that delivers pieces.
-/
namespace Ouro

/-- The methods of `bufio.Reader` that the code uses. `size` bounds the number of lines left to read. -/
structure Methods (ρ : Type) where
  peek : ρ → Nat → Except IOErr Bytes × ρ
  discard : ρ → Nat → ρ
  readByte : ρ → Except IOErr UInt8 × ρ
  readLine : ρ → Except IOErr Bytes × ρ
  readFull : ρ → Nat → Except IOErr Bytes × ρ
  size : ρ → Nat

/-- The reader of `Go/Bufio`. -/
def byteMethods : Methods Rdr where
  peek := Rdr.peek
  discard := Rdr.discard
  readByte := Rdr.readByte
  readLine := Rdr.readLine
  readFull := Rdr.readFull
  size r := r.buf.length + r.net.length

/-- The reader of `Go/BufioChunks`. -/
def chunkMethods : Methods CRdr where
  peek := CRdr.peek
  discard := CRdr.discard
  readByte := CRdr.readByte
  readLine := CRdr.readLine
  readFull := CRdr.readFull
  size r := r.buf.length + netSize r.net

section
variable {ρ : Type} (m : Methods ρ)

/-- connection.go:169-175 `ReadBytes` -/
def readBytesM (r : ρ) (n : Nat) : Except IOErr Bytes × ρ :=
  match m.peek r n with
  | (.ok b, r) => (.ok b, m.discard r n)
  | (.error e, r) => (.error e, r)

/-- connection.go:147-153 `ReadUint16` -/
def readUint16M (r : ρ) : Except IOErr Nat × ρ :=
  match m.readFull r 2 with
  | (.ok b, r) => (.ok (b.foldl (fun n x => n * 256 + x.toNat) 0), r)
  | (.error e, r) => (.error e, r)

/-- message.go:142-155, as `headerLoop`. -/
def headerLoopM : Nat → ρ → Header → Except MsgErr Header × ρ
  | 0, r, _ => (.error (.io .eof), r)
  | fuel + 1, r, h =>
    match m.readLine r with
    | (.error e, r) => (.error (.io e), r)
    | (.ok line, r) =>
      if trimSpace line = [] then (.ok h, r)
      else match splitN2 58 (trimSpace line) with
        | [k, v] => headerLoopM fuel r (h.set (trimSpace k) (trimSpace v))
        | _ => (.error .malformed, r)

/-- message.go:112-170, as `unpackRsp`. -/
def unpackRspM (r : ρ) : Except MsgErr Response × ρ :=
  match m.readLine r with
  | (.error e, r) => (.error (.io e), r)
  | (.ok line, r) =>
    match statusLine b!"RTSP/1.0" line with
    | .error e => (.error e, r)
    | .ok (status, code) =>
      match headerLoopM m (m.size r + 1) r [] with
      | (.error e, r) => (.error e, r)
      | (.ok h, r) =>
        let cl := contentLen (h.get b!"Content-Length")
        let rsp : Response := { proto := b!"RTSP/1.0", status, statusCode := code, contentLength := cl,
                                cseq := (atoi (h.get b!"CSeq")).1, header := h, body := none }
        if cl > 0 then
          match readBytesM m r cl.toNat with
          | (.error e, r) => (.error (.io e), r)
          | (.ok b, r) => (.ok { rsp with body := some b }, r)
        else (.ok rsp, r)

/-- session.go:175-190, as `recvFrame`. -/
def recvFrameM (r : ρ) : Except MsgErr Item × ρ :=
  match m.readByte (m.discard r 1) with
  | (.error e, r) => (.error (.io e), r)
  | (.ok ch, r) =>
    match readUint16M m r with
    | (.error e, r) => (.error (.io e), r)
    | (.ok length, r) =>
      match readBytesM m r length with
      | (.error e, r) => (.error (.io e), r)
      | (.ok buf, r) => (.ok (.frame ch buf), r)

/-- session.go:167-193, as `recv`. -/
def recvM (r : ρ) : Except MsgErr Item × ρ :=
  match m.peek r 1 with
  | (.error e, r) => (.error (.io e), r)
  | (.ok b, r) =>
    if b = [36] then recvFrameM m r
    else match unpackRspM m r with
      | (.error e, r) => (.error e, r)
      | (.ok rsp, r) => (.ok (.response rsp), r)

/-- http.go:76-89, as `httpHeaderLoop`. -/
def httpHeaderLoopM : Nat → ρ → Option MsgErr × ρ
  | 0, r => (some (.io .eof), r)
  | fuel + 1, r =>
    match m.readLine r with
    | (.error e, r) => (some (.io e), r)
    | (.ok line, r) =>
      if trimSpace line = [] then (none, r)
      else if (splitN2 58 (trimSpace line)).length ≠ 2 then (some .malformed, r)
      else httpHeaderLoopM fuel r

/-- http.go:50-92, as `receiveHTTP`. -/
def receiveHTTPM (r : ρ) : Option MsgErr × ρ :=
  match m.readLine r with
  | (.error e, r) => (some (.io e), r)
  | (.ok line, r) =>
    match statusLine b!"HTTP/1.0" line with
    | .error e => (some e, r)
    | .ok _ => httpHeaderLoopM m (m.size r + 1) r

/-- session.go:204-207, as `clientRead`; the reader is apart from the rest of the client. -/
def clientReadM (w : World) (r : ρ) (c : Client) : Go (ρ × Client) :=
  if c.running = true ∧ c.states = [] ∧ c.data.length ≤ 20 then
    match recvM m r with
    | (.error (.io .timeout), r) => pure (r, c)
    | (.error _, r) => pure (r, { c with running := false })
    | (.ok item, r) =>
      match handleItem w c.sess item with
      | .error p => .error p
      | .ok (s, e) => pure (r, { c with running := goesOn e }.adopt s)
  else pure (r, c)

/-- One step of the client, as `cstep`. -/
def cstepM (w : World) (r : ρ) (c : Client) (e : CEv) : Go (ρ × Client) :=
  if c.ended then pure (r, c)
  else match e with
    | .read => clientReadM m w r c
    | e =>
      match cstep w c e with
      | .error p => .error p
      | .ok c => pure (r, c)

/-- A schedule. -/
def cstepsM (w : World) (r : ρ) (c : Client) : List CEv → Go (ρ × Client)
  | [] => pure (r, c)
  | e :: es =>
    match cstepM m w r c e with
    | .error p => .error p
    | .ok (r, c) => cstepsM w r c es

end

/-! With the methods of `Rdr` these are the functions modelled before. -/

theorem readBytesM_byte : readBytesM byteMethods = Rdr.readBytes := by
  funext r n; unfold readBytesM Rdr.readBytes
  simp only [byteMethods]
  rcases r.peek n with ⟨_ | _, _⟩ <;> rfl

theorem readUint16M_byte : readUint16M byteMethods = Rdr.readUint16 := by
  funext r; unfold readUint16M Rdr.readUint16
  simp only [byteMethods]
  rcases r.readFull 2 with ⟨_ | _, _⟩ <;> rfl

theorem headerLoopM_byte : headerLoopM byteMethods = headerLoop := by
  funext n
  induction n with
  | zero => rfl
  | succ n ih =>
    funext r h
    rw [headerLoopM, headerLoop, ih]
    simp only [byteMethods]
    rcases r.readLine with ⟨_ | line, _⟩
    · rfl
    · dsimp only
      split
      · rfl
      · generalize splitN2 58 (trimSpace line) = l
        rcases l with _ | ⟨a, _ | ⟨b, _ | ⟨c, d⟩⟩⟩ <;> rfl

theorem unpackRspM_byte : unpackRspM byteMethods = unpackRsp := by
  funext r; unfold unpackRspM unpackRsp
  rw [headerLoopM_byte, readBytesM_byte]
  simp only [byteMethods]
  rcases r.readLine with ⟨_ | line, r⟩
  · rfl
  · dsimp only
    rcases statusLine b!"RTSP/1.0" line with _ | ⟨_, _⟩
    · rfl
    · dsimp only
      rcases headerLoop (r.buf.length + r.net.length + 1) r [] with ⟨_ | h, r⟩
      · rfl
      · dsimp only
        split
        · rcases r.readBytes (contentLen (h.get b!"Content-Length")).toNat with ⟨_ | _, _⟩ <;> rfl
        · rfl

theorem recvFrameM_byte : recvFrameM byteMethods = recvFrame := by
  funext r; unfold recvFrameM recvFrame
  rw [readUint16M_byte, readBytesM_byte]
  simp only [byteMethods]
  rcases (r.discard 1).readByte with ⟨_ | _, r⟩
  · rfl
  · dsimp only
    rcases r.readUint16 with ⟨_ | n, r⟩
    · rfl
    · dsimp only
      rcases r.readBytes n with ⟨_ | _, _⟩ <;> rfl

theorem recvM_byte : recvM byteMethods = recv := by
  funext r; unfold recvM recv; rw [unpackRspM_byte, recvFrameM_byte]
  simp only [byteMethods]
  rcases r.peek 1 with ⟨_ | _, r⟩
  · rfl
  · dsimp only
    split
    · rfl
    · rcases unpackRsp r with ⟨_ | _, _⟩ <;> rfl

theorem httpHeaderLoopM_byte : httpHeaderLoopM byteMethods = httpHeaderLoop := by
  funext n
  induction n with
  | zero => rfl
  | succ n ih =>
    funext r
    rw [httpHeaderLoopM, httpHeaderLoop, ih]
    simp only [byteMethods]
    rcases r.readLine with ⟨_ | line, _⟩ <;> rfl

theorem receiveHTTPM_byte : receiveHTTPM byteMethods = receiveHTTP := by
  funext r; unfold receiveHTTPM receiveHTTP; rw [httpHeaderLoopM_byte]
  simp only [byteMethods]
  rcases r.readLine with ⟨_ | line, _⟩
  · rfl
  · dsimp only
    rcases statusLine b!"HTTP/1.0" line with _ | _ <;> rfl

end Ouro
