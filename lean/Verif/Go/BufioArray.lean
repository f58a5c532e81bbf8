import Verif.Go.BufioChunks
import Verif.Go.Slices
/-!
# Go standard library: `bufio.Reader` with its array

Nothing here models code of /repo. `Go/BufioChunks` has the unread bytes only. Here is the array they are in, as in bufio.go of Go, because what
`Peek` returns is a part of that array. `reads` counts the calls of `Read` of the connection. That a program sees the same is theorem C86_array.
-/
namespace Ouro

/-- `Reader`: the array `b.buf`, `b.r`, `b.w`, `b.err`, and the connection. -/
structure ARdr where
  arr : Bytes
  r : Nat := 0
  w : Nat := 0
  err : Option IOErr := none
  net : List Rd
  reads : Nat := 0
  deriving Repr

/-- `NewReaderSize(conn, 2048)` -/
def newARdr (net : List Rd) : ARdr := { arr := List.replicate bufSize 0, net }

/-- `b.buf[b.r:b.w]` -/
def ARdr.unread (a : ARdr) : Bytes := (a.arr.drop a.r).take (a.w - a.r)

/-- The first half of `Reader.fill`: `copy(b.buf, b.buf[b.r:b.w]); b.w -= b.r; b.r = 0` -/
def ARdr.slide (a : ARdr) : ARdr := if 0 < a.r then { a with arr := overwrite a.arr 0 a.unread, r := 0, w := a.w - a.r } else a

/-- The second half: one `Read` into `b.buf[b.w:]`. -/
def ARdr.take1 (a : ARdr) : ARdr :=
  match sockRead (bufSize - a.w) a.net with
  | (.ok bs, t) => { a with arr := overwrite a.arr a.w bs, w := a.w + bs.length, net := t, reads := a.reads + 1 }
  | (.error e, t) => { a with err := some e, net := t, reads := a.reads + 1 }

/-- `Reader.fill` -/
def ARdr.fill (a : ARdr) : ARdr := a.slide.take1

def ARdr.todo (a : ARdr) : Nat := netSize a.net + (if a.err = none then 1 else 0)

theorem sockRead_todo (k : Nat) (hk : 0 < k) (net : List Rd) :
    match sockRead k net with
    | (.ok _, t) => netSize t < netSize net
    | (.error _, t) => netSize t ≤ netSize net := by
  cases net with
  | nil => exact Nat.le_refl _
  | cons e t =>
    cases e with
    | data b more =>
      simp only [sockRead, netSize_leftOver, netSize, List.length_drop, List.length_cons]
      omega
    | timeout => simp [sockRead, netSize]
    | reset => simp [sockRead, netSize]

theorem ARdr.slide_same (a : ARdr) : a.slide.err = a.err ∧ a.slide.net = a.net ∧ a.slide.w = a.w - a.r ∧ a.slide.r = 0 ∧ a.slide.reads = a.reads := by
  unfold slide
  split
  · exact ⟨rfl, rfl, rfl, rfl, rfl⟩
  · exact ⟨rfl, rfl, by omega, by omega, rfl⟩

theorem ARdr.fill_todo {a : ARdr} (he : a.err = none) (hb : a.w - a.r < bufSize) : a.fill.todo < a.todo := by
  obtain ⟨h1, h2, h3, _⟩ := a.slide_same
  have := sockRead_todo (bufSize - a.slide.w) (by omega) a.slide.net
  unfold fill take1 todo
  rw [he, if_pos rfl, ← h2]
  split
  · rename_i e; rw [e] at this; dsimp only at *; rw [h1, he, if_pos rfl]; omega
  · rename_i e; rw [e] at this; dsimp only at *; rw [if_neg (by simp)]; omega

/-- The loop of `Reader.Peek` -/
def ARdr.fillTo (n : Nat) (a : ARdr) : ARdr :=
  if h : a.w - a.r < n ∧ a.w - a.r < bufSize ∧ a.err = none then fillTo n a.fill else a
termination_by a.todo
decreasing_by exact ARdr.fill_todo h.2.2 h.2.1

/-- A part of the array: where it begins, and its length. -/
def ARdr.part (a : ARdr) (p : Nat × Nat) : Bytes := (a.arr.drop p.1).take p.2

/-- `Reader.Peek`: the part of the array it returns. -/
def ARdr.peekAt (a : ARdr) (n : Nat) : Except IOErr (Nat × Nat) × ARdr :=
  let a := a.fillTo n
  if n > bufSize then (.error .bufferFull, a)
  else if a.w - a.r < n then
    match a.err with
    | some e => (.error e, { a with err := none })
    | none => (.error .bufferFull, a)
  else (.ok (a.r, n), a)

/-- `Reader.Peek`: the bytes that are there when it returns. -/
def ARdr.peek (a : ARdr) (n : Nat) : Except IOErr Bytes × ARdr :=
  match a.peekAt n with
  | (.ok p, a) => (.ok (a.part p), a)
  | (.error e, a) => (.error e, a)

/-- `Reader.Discard(n)` with at least `n` bytes buffered, the only way it is called. -/
def ARdr.discard (a : ARdr) (n : Nat) : ARdr := { a with r := min (a.r + n) a.w }

/-- `Reader.ReadByte` -/
def ARdr.readByte (a : ARdr) : Except IOErr UInt8 × ARdr :=
  if h : a.w - a.r = 0 then
    match he : a.err with
    | some e => (.error e, { a with err := none })
    | none => a.fill.readByte
  else (.ok (a.arr.getD a.r 0), { a with r := a.r + 1 })
termination_by a.todo
decreasing_by exact ARdr.fill_todo he (by rw [h]; decide)

/-- `Reader.ReadString('\n')`: `ReadSlice` again and again; `acc` is what earlier calls returned with `ErrBufferFull`. -/
def ARdr.readString (acc : Bytes) (a : ARdr) : Except IOErr Bytes × ARdr :=
  match cut 10 a.unread with
  | some (l, _) => (.ok (acc ++ l ++ [10]), { a with r := a.r + l.length + 1 })
  | none =>
    match he : a.err with
    | some e => (.error e, { a with r := a.w, err := none })
    | none => if hl : bufSize ≤ a.w - a.r then readString (acc ++ a.unread) { a with r := a.w } else readString acc a.fill
termination_by (a.todo, a.w - a.r)
decreasing_by
  · refine Prod.Lex.right' _ ?_ ?_
    · simp [ARdr.todo]
    · show a.w - a.w < a.w - a.r
      have : 0 < bufSize := by decide
      omega
  · exact Prod.Lex.left _ _ (ARdr.fill_todo he (by omega))

def ARdr.readLine (a : ARdr) : Except IOErr Bytes × ARdr := a.readString []

/-- `Reader.Read(p)` with `len(p) = k`, `k` not 0. -/
def ARdr.read (a : ARdr) (k : Nat) : Except IOErr Bytes × ARdr :=
  if a.w - a.r = 0 then
    match a.err with
    | some e => (.error e, { a with err := none })
    | none =>
      if bufSize ≤ k then ((sockRead k a.net).1, { a with net := (sockRead k a.net).2, reads := a.reads + 1 })
      else
        match sockRead bufSize a.net with
        | (.error e, t) => (.error e, { a with r := 0, w := 0, net := t, reads := a.reads + 1 })
        | (.ok bs, t) =>
          (.ok (bs.take k), { a with arr := overwrite a.arr 0 bs, r := min k bs.length, w := bs.length, net := t, reads := a.reads + 1 })
  else (.ok (a.unread.take k), { a with r := min (a.r + k) a.w })

/-- `io.ReadFull(r, p)` with `len(p) = k`: `Read`, which returns at least one byte, until all is there. -/
def ARdr.readAll (acc : Bytes) (k : Nat) (a : ARdr) : Except IOErr Bytes × ARdr :=
  match k with
  | 0 => (.ok acc, a)
  | k + 1 =>
    match a.read (k + 1) with
    | (.error e, a) => (.error e, a)
    | (.ok bs, a) => readAll (acc ++ bs) (k - (bs.length - 1)) a
termination_by k

def ARdr.readFull (a : ARdr) (n : Nat) : Except IOErr Bytes × ARdr := a.readAll [] n

end Ouro
