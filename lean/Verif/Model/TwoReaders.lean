import Verif.Go.Bufio
/-!
# Model of two goroutines `process` of one session, net/rtsp/session.go

`Open` (session.go:46-54) sets `s.Conn` to the new connection and starts a goroutine. If the session was open, its first goroutine
goes on: it may be waiting in a call on the old connection, but every further call is on `s.Conn`, that is, on the new one, so that both read from it.
A call takes the connection when it begins and returns when its bytes are there. Simplified: once they are, it is atomic; all bytes of a connection are there from the beginning;
connections are not closed; `KeepAlive` is left out.
-/
namespace Ouro

/-- Where a goroutine is in `receive`, session.go:167-193. -/
inductive GPc
  | peek                               -- line 170
  | discard                            -- line 175
  | channel                            -- line 177
  | length (ch : UInt8)                -- line 180
  | body (ch : UInt8) (n : Nat)        -- line 184
  | send (ch : UInt8) (payload : Bytes) -- line 187
  | response                           -- line 192
  | gone                               -- `process` has returned
  deriving DecidableEq

/-- A goroutine: where it is, and the connection of the call it is in, if it is in one: `some false` is the old connection, `some true` the new one. -/
structure Gor where
  pc : GPc := .peek
  on : Option Bool := none
  deriving DecidableEq

/-- The bytes the two connections still have, the goroutines, and what has been sent to the channel `Data`. -/
structure TwoReaders where
  old : Bytes
  new : Bytes
  first : Gor
  second : Gor
  data : List (UInt8 × Bytes) := []
  deriving DecidableEq

/-- What happens next to a goroutine: it goes on, its deadline passes, or `handleRtsp` reads a line and `k` more bytes, and fails or not. -/
inductive GTurn
  | go
  | timeout
  | answer (k : Nat) (fails : Bool)

/-- The call in progress, if its bytes are there: connection.go:129-176, session.go:170-186. `Peek` for more than the buffer has (2048 bytes) is an error that ends `process`. -/
def gcall : GPc → Bytes → Option (GPc × Bytes)
  | .peek, b :: bs => some (if b = 36 then .discard else .response, b :: bs)
  | .discard, _ :: bs => some (.channel, bs)
  | .channel, b :: bs => some (.length b, bs)
  | .length ch, a :: b :: bs => some (.body ch (256 * a.toNat + b.toNat), bs)
  | .body ch n, bs => if bufSize < n then some (.gone, bs) else if n ≤ bs.length then some (.send ch (bs.take n), bs.drop n) else none
  | _, _ => none

/-- The deadline has passed: the error of `Discard` is not looked at (session.go:175), the others end `receive`, after which `process` calls it again (session.go:204).
`ReadUint16` has taken the byte there was. -/
def glate : GPc → Bytes → GPc × Bytes
  | .discard, bs => (.channel, bs)
  | .length _, bs => (.peek, bs.drop 2)
  | _, bs => (.peek, bs)

/-- The bytes after the first line, message.go:113; without a line feed everything is read until the deadline. -/
def afterLine : Bytes → Bytes
  | [] => []
  | b :: bs => if b = 10 then bs else afterLine bs

/-- One step of the goroutine `g`: session.go:167-210. -/
def gmove (s : TwoReaders) (g : Gor) (t : GTurn) : Gor × TwoReaders :=
  match g.pc with
  | .gone => (g, s)
  | .send ch p =>
    match t with
    | .go => ({ pc := .peek }, { s with data := s.data ++ [(ch, p)] })
    | _ => (g, s)
  | .response =>
    match t with
    | .answer k fails =>
      if (10 : UInt8) ∈ s.new then ({ pc := if fails then .gone else .peek }, { s with new := (afterLine s.new).drop k })
      else ({ pc := .peek }, { s with new := [] })
    | _ => (g, s)
  | pc =>
    match g.on with
    | none =>
      match t with
      | .go => ({ g with on := some true }, s)
      | _ => (g, s)
    | some c =>
      match gcall pc (if c then s.new else s.old), t with
      | some (pc', bs), .go => ({ pc := pc' }, if c then { s with new := bs } else { s with old := bs })
      | none, .timeout => ({ pc := (glate pc (if c then s.new else s.old)).1 },
          if c then { s with new := (glate pc s.new).2 } else { s with old := (glate pc s.old).2 })
      | _, _ => (g, s)

/-- One step of the first goroutine (`true`) or of the second. -/
def qturn (s : TwoReaders) (x : Bool × GTurn) : TwoReaders :=
  if x.1 then { (gmove s s.first x.2).2 with first := (gmove s s.first x.2).1 }
  else { (gmove s s.second x.2).2 with second := (gmove s s.second x.2).1 }

/-- A schedule. -/
def qturns (s : TwoReaders) (ts : List (Bool × GTurn)) : TwoReaders := ts.foldl qturn s

/-- The session has just been opened again: the first goroutine waits for the old connection, which is silent, or it has ended before; the new one has these bytes. -/
def reopened (alive : Bool) (bytes : Bytes) : TwoReaders :=
  { old := [], new := bytes, first := if alive then { pc := .peek, on := some false } else { pc := .gone }, second := {} }

end Ouro
