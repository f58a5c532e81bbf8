import Verif.Model.NalHeap
/-! # What a program keeps while buffers are reused -/
namespace Ouro.Spec

/-- What a unit holds. -/
def viewUnit (b : Heap UInt8) (u : HUnit) : NALUnit := ⟨u.header, u.don, u.ts, u.data.view b⟩
/-- What a fragment holds. -/
def viewFrag (b : Heap UInt8) (f : HFrag) : NALFragment := ⟨viewUnit b f.unit, f.flags⟩
/-- What a sink holds. -/
def viewSink (m : Mem) (s : HSink) : NALSink :=
  ⟨(s.units.view m.u).map (viewUnit m.b), (s.fragments.view m.f).map (viewFrag m.b), s.don⟩

/-- A program with one sink. `scratch` are the arrays of bytes it, or the reader of a connection, may overwrite at any time. `units` are the
units reported so far, with what they held when they were reported; `payloads` the payloads of the packets received so far, with what they
held when they were handed over; `pushed` are the contents and timestamps of the payloads pushed so far. -/
structure Life where
  m : Mem
  s : HSink
  scratch : List Nat
  units : List (HUnit × NALUnit)
  payloads : List (Sl × Bytes)
  pushed : List (Bytes × Nat)

/-- The program starts: it has no bytes yet, and a new sink. -/
def Life.start : Life := ⟨(hNewNALSink ⟨[], [], []⟩).1, (hNewNALSink ⟨[], [], []⟩).2, [], [], [], []⟩

/-- What may happen next. `grow` tells how much room `append` reserves. -/
inductive Life.Step (grow : Nat → Nat) : Life → Life → Prop
  /-- A buffer is allocated. -/
  | alloc (l : Life) (xs : Bytes) : Step grow l { l with m := { l.m with b := l.m.b ++ [xs] }, scratch := l.m.b.length :: l.scratch }
  /-- A part of a buffer is overwritten. -/
  | write (l : Life) (a i : Nat) (xs : Bytes) (ha : a ∈ l.scratch) (hi : i + xs.length ≤ (l.m.b.getD a []).length) :
      Step grow l { l with m := { l.m with b := l.m.b.write a i xs } }
  /-- A packet is handed over, from a part of any buffer. -/
  | deliver (l : Life) (buf : Sl) (hb : buf.WF l.m.b) :
      Step grow l { l with m := { l.m with b := (hCopy grow l.m.b buf).1 }, payloads := ((hCopy grow l.m.b buf).2, buf.view l.m.b) :: l.payloads }
  /-- A payload is pushed, from a part of any buffer. -/
  | push (l : Life) (buf : Sl) (ts : Nat) (hb : buf.WF l.m.b) (e : Option H264Err) (m : Mem) (s : HSink) (h : hPush grow l.m l.s buf ts = .ok (e, m, s)) :
      Step grow l { l with
        m := m, s := s, units := (s.units.view m.u).map (fun u => (u, viewUnit m.b u)) ++ l.units, pushed := l.pushed ++ [(buf.view l.m.b, ts)] }

/-- Any number of steps. -/
inductive Life.Reach (grow : Nat → Nat) : Life → Prop
  | start : Reach grow .start
  | step (l l' : Life) (h : Reach grow l) (st : l.Step grow l') : Reach grow l'

/-- The sink after these payloads, if there were nothing but values. -/
def pushes : NALSink → List (Bytes × Nat) → Go NALSink
  | s, [] => .ok s
  | s, (p, ts) :: rest =>
    match push s p ts with
    | .error e => .error e
    | .ok (_, s) => pushes s rest

end Ouro.Spec
