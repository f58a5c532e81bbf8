import Verif.Go.BufioArray
import Verif.Model.Chunks
/-!
# Model of connection.go `ReadBytes` and message.go `Unpack`, with the place of what they return

Model/Message has the bytes. Here they are a part of the array of the reader.
-/
namespace Ouro

/-- The reader of `Go/BufioArray`. -/
def arrayMethods : Methods ARdr where
  peek := ARdr.peek
  discard := ARdr.discard
  readByte := ARdr.readByte
  readLine := ARdr.readLine
  readFull := ARdr.readFull
  size a := a.unread.length + netSize a.net

/-- connection.go:169-175 `ReadBytes`: the part of the array it returns. -/
def ARdr.readBytesAt (a : ARdr) (n : Nat) : Except IOErr (Nat × Nat) × ARdr :=
  match a.peekAt n with
  | (.ok p, a) => (.ok p, a.discard n)
  | (.error e, a) => (.error e, a)

/-- message.go:112-170 `Unpack`: the response without its body, and the part of the array that is its body. -/
def unpackRspAt (a : ARdr) : Except MsgErr (Response × Option (Nat × Nat)) × ARdr :=
  match a.readLine with
  | (.error e, a) => (.error (.io e), a)
  | (.ok line, a) =>
    match statusLine b!"RTSP/1.0" line with
    | .error e => (.error e, a)
    | .ok (status, code) =>
      match headerLoopM arrayMethods (arrayMethods.size a + 1) a [] with
      | (.error e, a) => (.error e, a)
      | (.ok h, a) =>
        let cl := contentLen (h.get b!"Content-Length")
        let rsp : Response := { proto := b!"RTSP/1.0", status, statusCode := code, contentLength := cl,
                                cseq := (atoi (h.get b!"CSeq")).1, header := h, body := none }
        if cl > 0 then
          match a.readBytesAt cl.toNat with
          | (.error e, a) => (.error (.io e), a)
          | (.ok p, a) => (.ok (rsp, some p), a)
        else (.ok (rsp, none), a)

end Ouro
