import Verif.Go.Basic
/-!
# Model of the UDP listeners of net/rtsp/connection.go: `AddSink`, `Start`, `Stop`

Sockets, goroutines and channels are modelled step by step. What the network does (`datagram`, read errors) is up to the schedule.
Sockets are numbered in the order of creation. Listening is taken to succeed here (Model/Session has the failure).
-/
namespace Ouro

/-- connection.go:34-38 `udpsink`: the channel number, datagrams that the operating system holds for the socket, oldest first, and whether it
is open. -/
structure Sock where
  ch : UInt8
  rx : List Bytes := []
  isOpen : Bool := true
  deriving DecidableEq, Repr

/-- Where a goroutine of `Start` is, connection.go:203-221. -/
inductive Phase
  | waiting                  -- line 206-209: the `select` on `done`; `break` only leaves the `select`
  | reading                  -- line 210
  | sending (payload : Bytes)  -- line 212-214
  | ended                    -- line 219
  deriving DecidableEq, Repr

/-- The sockets, `c.sinks` (numbers of sockets), the goroutines with their sockets, the sockets that a running `Stop` still has to signal, the
channel `Data` with 20 places, and all that was put on it so far, oldest first. -/
structure Udp where
  socks : List Sock := []
  sinks : List Nat := []
  gos : List (Nat × Phase) := []
  stopping : Option (List Nat) := none
  buffer : List (UInt8 × Bytes) := []
  log : List (UInt8 × Bytes) := []
  deriving DecidableEq, Repr

/-- What can happen next. -/
inductive UEv
  | addSink (ch : UInt8)             -- connection.go:178-197
  | start                            -- connection.go:200-223
  | stop                             -- connection.go:226: `Stop` is called
  | signal (g : Nat)                 -- connection.go:228-230 with 206-209: `Stop` hands over a value to goroutine `g`
  | stopped                          -- connection.go:232: end of `Stop`
  | datagram (i : Nat) (p : Bytes)   -- a datagram arrives at socket `i`
  | read (g : Nat)                   -- connection.go:210: goroutine `g` takes a datagram
  | readFails (g : Nat) (temp : Bool) -- connection.go:215-217
  | put (g : Nat)                    -- connection.go:213
  | take                             -- the user receives from `Data`
  deriving DecidableEq, Repr

/-- One step; `none` if it cannot happen now. Calls of `AddSink`, `Start` and `Stop` are made one after the other. `ReadFromUDP` cuts
datagrams off at 2048 bytes. -/
def ustep (s : Udp) : UEv → Option Udp
  | .addSink ch => if s.stopping = none then some { s with socks := s.socks ++ [{ ch }], sinks := s.sinks ++ [s.socks.length] } else none
  | .start => if s.stopping = none then some { s with gos := s.gos ++ s.sinks.map fun i => (i, .waiting) } else none
  | .stop => if s.stopping = none then some { s with stopping := some s.sinks } else none
  | .signal g =>
    match s.stopping, s.gos[g]? with
    | some (i :: is), some (j, .waiting) => if i = j then some { s with stopping := some is, gos := s.gos.set g (j, .reading) } else none
    | _, _ => none
  | .stopped => if s.stopping = some [] then some { s with stopping := none, sinks := [] } else none
  | .datagram i p =>
    match s.socks[i]? with
    | some k => if k.isOpen then some { s with socks := s.socks.set i { k with rx := k.rx ++ [p] } } else none
    | none => none
  | .read g =>
    match s.gos[g]? with
    | some (i, .reading) =>
      match s.socks[i]? with
      | some ⟨ch, p :: rx, true⟩ => some { s with socks := s.socks.set i ⟨ch, rx, true⟩, gos := s.gos.set g (i, .sending (p.take 2048)) }
      | _ => none
    | _ => none
  | .readFails g temp =>
    match s.gos[g]? with
    | some (i, .reading) =>
      if temp then some { s with gos := s.gos.set g (i, .waiting) }
      else match s.socks[i]? with
        | some k => some { s with gos := s.gos.set g (i, .ended), socks := s.socks.set i { k with isOpen := false } }
        | none => none
    | _ => none
  | .put g =>
    match s.gos[g]? with
    | some (i, .sending p) =>
      match s.socks[i]? with
      | some k => if s.buffer.length < 20 then some { s with gos := s.gos.set g (i, .waiting), buffer := s.buffer ++ [(k.ch, p)], log := s.log ++ [(k.ch, p)] } else none
      | none => none
    | _ => none
  | .take => if s.buffer = [] then none else some { s with buffer := s.buffer.drop 1 }

/-- A schedule. -/
def usteps (s : Udp) : List UEv → Option Udp
  | [] => some s
  | e :: es =>
    match ustep s e with
    | some s => usteps s es
    | none => none

end Ouro
