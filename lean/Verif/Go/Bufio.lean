import Verif.Go.Strings
/-!
# Go standard library: `bufio.Reader` over a TCP connection

Nothing here models code of /repo. What the connection will deliver is a list of events: the next byte, a read deadline that
expires while waiting for the next byte, or a broken connection; the end of the list is the end of the stream. A `Read` that
returns several bytes is as many `byte` events: how many bytes the reader has taken from the socket before they are needed
cannot be observed through the methods used here. `reset` is an error that is neither a timeout nor temporary. (Up to Go 1.13 a reset by the peer counts as
temporary and the end of the stream follows: here a `timeout` with nothing after it.)
-/
namespace Ouro

inductive IOErr
  | timeout
  | eof
  | reset
  | bufferFull
  deriving DecidableEq, Repr

inductive Ev
  | byte (b : UInt8)
  | timeout
  | reset
  deriving DecidableEq, Repr

/-- A `bufio.Reader` made with `NewReaderSize(conn, 2048)`: unread buffered bytes, the pending error and what the connection
will deliver. -/
structure Rdr where
  buf : Bytes := []
  err : Option IOErr := none
  net : List Ev
  deriving Repr

/-- The size of the buffer. -/
def bufSize : Nat := 2048

/-- Read until `m` bytes are buffered or an error occurs. -/
def fillLoop (m : Nat) (buf : Bytes) : List Ev → Rdr
  | [] => if buf.length < m then ⟨buf, some .eof, []⟩ else ⟨buf, none, []⟩
  | .byte b :: t => if buf.length < m then fillLoop m (buf ++ [b]) t else ⟨buf, none, .byte b :: t⟩
  | .timeout :: t => if buf.length < m then ⟨buf, some .timeout, t⟩ else ⟨buf, none, .timeout :: t⟩
  | .reset :: t => if buf.length < m then ⟨buf, some .reset, t⟩ else ⟨buf, none, .reset :: t⟩

/-- `Reader.Peek`. The bytes returned with an error are left out: no caller uses them. -/
def Rdr.peek (r : Rdr) (n : Nat) : Except IOErr Bytes × Rdr :=
  let r := if r.err = none then fillLoop (min n bufSize) r.buf r.net else r
  if n > bufSize then (.error .bufferFull, r)
  else if r.buf.length < n then
    match r.err with
    | some e => (.error e, { r with err := none })
    | none => (.error .bufferFull, r)
  else (.ok (r.buf.take n), r)

/-- `Reader.Discard(n)` with at least `n` bytes buffered, the only way it is called. -/
def Rdr.discard (r : Rdr) (n : Nat) : Rdr := { r with buf := r.buf.drop n }

/-- `Reader.ReadByte` -/
def Rdr.readByte (r : Rdr) : Except IOErr UInt8 × Rdr :=
  let r := if r.err = none then fillLoop 1 r.buf r.net else r
  match r.buf with
  | b :: t => (.ok b, { r with buf := t })
  | [] =>
    match r.err with
    | some e => (.error e, { r with err := none })
    | none => (.error .bufferFull, r)

/-- `Reader.ReadString('\n')` after the buffer has been searched; `acc` is what was read before. -/
def lineLoop (acc : Bytes) : List Ev → Except IOErr Bytes × Rdr
  | [] => (.error .eof, ⟨[], none, []⟩)
  | .byte b :: t => if b = 10 then (.ok (acc ++ [10]), ⟨[], none, t⟩) else lineLoop (acc ++ [b]) t
  | .timeout :: t => (.error .timeout, ⟨[], none, t⟩)
  | .reset :: t => (.error .reset, ⟨[], none, t⟩)

/-- `Reader.ReadString('\n')`. A line longer than the buffer is put together from pieces. On an error the bytes read so far are
returned with it and no longer in the reader; no caller uses them, so they are left out. -/
def Rdr.readLine (r : Rdr) : Except IOErr Bytes × Rdr :=
  match cut 10 r.buf with
  | some (a, b) => (.ok (a ++ [10]), { r with buf := b })
  | none =>
    match r.err with
    | some e => (.error e, ⟨[], none, r.net⟩)
    | none => lineLoop r.buf r.net

/-- `io.ReadFull` into `n` more bytes when the buffer is empty. Bytes read before an error are lost. -/
def fullLoop (acc : Bytes) : Nat → List Ev → Except IOErr Bytes × Rdr
  | 0, net => (.ok acc, ⟨[], none, net⟩)
  | _ + 1, [] => (.error .eof, ⟨[], none, []⟩)
  | n + 1, .byte b :: t => fullLoop (acc ++ [b]) n t
  | _ + 1, .timeout :: t => (.error .timeout, ⟨[], none, t⟩)
  | _ + 1, .reset :: t => (.error .reset, ⟨[], none, t⟩)

/-- `io.ReadFull(r, p)` with `len(p) = n`: used by `binary.Read`. An end of the stream after some bytes is `io.ErrUnexpectedEOF` in
Go, here `eof`: both end the session. -/
def Rdr.readFull (r : Rdr) (n : Nat) : Except IOErr Bytes × Rdr :=
  if n ≤ r.buf.length then (.ok (r.buf.take n), { r with buf := r.buf.drop n })
  else
    match r.err with
    | some e => (.error e, ⟨[], none, r.net⟩)
    | none => fullLoop r.buf (n - r.buf.length) r.net

end Ouro
