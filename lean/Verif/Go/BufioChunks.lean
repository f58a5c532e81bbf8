import Verif.Go.Bufio
/-!
# Go standard library: `bufio.Reader` over a connection that delivers pieces

Nothing here models code of /repo. `Go/Bufio` has a connection that delivers single bytes and a reader that takes no more of them than it
needs. Here a `Read` of the connection returns any number of bytes, and the reader takes as many as fit into its buffer of 2048 bytes, as
bufio.go of Go does. That both show the same to a program is theorem C86.
-/
namespace Ouro

/-- What one `Read` of the connection finds: some bytes (at least one), an expired deadline, or a broken connection. No more of these: the end of
the stream. -/
inductive Rd
  | data (b : UInt8) (more : Bytes)
  | timeout
  | reset
  deriving DecidableEq, Repr

/-- The part of a piece that a `Read` did not take: the next `Read` finds it. -/
def leftOver : Bytes → List Rd → List Rd
  | [], t => t
  | b :: more, t => .data b more :: t

/-- `net.Conn.Read(p)` with `len(p) = k`: at most `k` bytes, or an error. -/
def sockRead (k : Nat) : List Rd → Except IOErr Bytes × List Rd
  | [] => (.error .eof, [])
  | .data b more :: t => (.ok ((b :: more).take k), leftOver ((b :: more).drop k) t)
  | .timeout :: t => (.error .timeout, t)
  | .reset :: t => (.error .reset, t)

/-- A `bufio.Reader` made with `NewReaderSize(conn, 2048)`: the unread bytes `b.buf[b.r:b.w]`, `b.err`, and what the connection will deliver. Where in
the array the unread bytes are makes no difference: `fill` moves them to the front before it reads. -/
structure CRdr where
  buf : Bytes := []
  err : Option IOErr := none
  net : List Rd
  deriving Repr

/-- `Reader.fill` with room in the buffer: one `Read` into the free part. -/
def CRdr.fill (r : CRdr) : CRdr :=
  match sockRead (bufSize - r.buf.length) r.net with
  | (.ok bs, t) => { r with buf := r.buf ++ bs, net := t }
  | (.error e, t) => { r with err := some e, net := t }

/-- How much there is to read; for termination. -/
def netSize : List Rd → Nat
  | [] => 0
  | .data _ more :: t => more.length + 1 + netSize t
  | _ :: t => 1 + netSize t

def CRdr.todo (r : CRdr) : Nat := netSize r.net + (if r.err = none then 1 else 0)

theorem netSize_leftOver (l : Bytes) (t : List Rd) : netSize (leftOver l t) = l.length + netSize t := by
  cases l with
  | nil => simp [leftOver]
  | cons b m => simp [leftOver, netSize]

theorem CRdr.fill_todo {r : CRdr} (he : r.err = none) (hb : r.buf.length < bufSize) : r.fill.todo < r.todo := by
  obtain ⟨buf, err, net⟩ := r
  dsimp only at *
  subst he
  cases net with
  | nil => simp [CRdr.fill, CRdr.todo, sockRead, netSize]
  | cons e t =>
    cases e with
    | data b more =>
      simp only [CRdr.fill, sockRead, CRdr.todo, netSize_leftOver, netSize, List.length_drop, List.length_cons, if_pos]
      omega
    | timeout => simp [CRdr.fill, CRdr.todo, sockRead, netSize]; omega
    | reset => simp [CRdr.fill, CRdr.todo, sockRead, netSize]; omega

/-- The loop of `Reader.Peek`: `for b.w-b.r < n && b.w-b.r < len(b.buf) && b.err == nil { b.fill() }` -/
def CRdr.fillTo (n : Nat) (r : CRdr) : CRdr :=
  if h : r.buf.length < n ∧ r.buf.length < bufSize ∧ r.err = none then fillTo n r.fill else r
termination_by r.todo
decreasing_by exact CRdr.fill_todo h.2.2 h.2.1

/-- `Reader.Peek` -/
def CRdr.peek (r : CRdr) (n : Nat) : Except IOErr Bytes × CRdr :=
  let r := r.fillTo n
  if n > bufSize then (.error .bufferFull, r)
  else if r.buf.length < n then
    match r.err with
    | some e => (.error e, { r with err := none })
    | none => (.error .bufferFull, r)
  else (.ok (r.buf.take n), r)

/-- `Reader.Discard(n)` with at least `n` bytes buffered, the only way it is called. -/
def CRdr.discard (r : CRdr) (n : Nat) : CRdr := { r with buf := r.buf.drop n }

/-- `Reader.ReadByte` -/
def CRdr.readByte (r : CRdr) : Except IOErr UInt8 × CRdr :=
  match hb : r.buf with
  | b :: t => (.ok b, { r with buf := t })
  | [] =>
    match he : r.err with
    | some e => (.error e, { r with err := none })
    | none => r.fill.readByte
termination_by r.todo
decreasing_by exact CRdr.fill_todo he (by rw [hb]; decide)

/-- `Reader.ReadString('\n')`: `ReadSlice` again and again; `acc` is what earlier calls returned with `ErrBufferFull`. -/
def CRdr.readString (acc : Bytes) (r : CRdr) : Except IOErr Bytes × CRdr :=
  match cut 10 r.buf with
  | some (a, b) => (.ok (acc ++ a ++ [10]), { r with buf := b })
  | none =>
    match he : r.err with
    | some e => (.error e, { r with buf := [], err := none })
    | none => if hl : bufSize ≤ r.buf.length then readString (acc ++ r.buf) { r with buf := [] } else readString acc r.fill
termination_by (r.todo, r.buf.length)
decreasing_by
  · refine Prod.Lex.right' _ ?_ ?_
    · simp [CRdr.todo]
    · show 0 < r.buf.length
      exact Nat.lt_of_lt_of_le (by decide) hl
  · exact Prod.Lex.left _ _ (CRdr.fill_todo he (by omega))

def CRdr.readLine (r : CRdr) : Except IOErr Bytes × CRdr := r.readString []

/-- `Reader.Read(p)` with `len(p) = k`, `k` not 0. A large `p` is read into directly. -/
def CRdr.read (r : CRdr) (k : Nat) : Except IOErr Bytes × CRdr :=
  if r.buf = [] then
    match r.err with
    | some e => (.error e, { r with err := none })
    | none =>
      if bufSize ≤ k then ((sockRead k r.net).1, { r with net := (sockRead k r.net).2 })
      else
        match sockRead bufSize r.net with
        | (.error e, t) => (.error e, { r with net := t })
        | (.ok bs, t) => (.ok (bs.take k), { r with buf := bs.drop k, net := t })
  else (.ok (r.buf.take k), { r with buf := r.buf.drop k })

theorem CRdr.read_some {r r' : CRdr} {k : Nat} {bs : Bytes} (h : r.read (k + 1) = (.ok bs, r')) : 0 < bs.length := by
  unfold CRdr.read at h
  split at h
  · split at h
    · cases h
    · split at h
      · injection h with h _
        cases hn : r.net with
        | nil => rw [hn] at h; cases h
        | cons e t =>
          rw [hn] at h
          cases e with
          | data b more => injection h with h; rw [← h]; simp
          | timeout => cases h
          | reset => cases h
      · split at h
        · cases h
        · next bs' t hs =>
          injection h with h _; injection h with h
          rw [← h]
          cases hn : r.net with
          | nil => rw [hn] at hs; cases hs
          | cons e t =>
            rw [hn] at hs
            cases e with
            | data b more =>
              injection hs with hs _; injection hs with hs; rw [← hs]
              have : (0:Nat) < bufSize := by decide
              simp; omega
            | timeout => cases hs
            | reset => cases hs
  · next hb =>
    injection h with h _; injection h with h
    rw [← h]
    cases hb' : r.buf with
    | nil => exact absurd hb' hb
    | cons x xs => simp

/-- `io.ReadFull(r, p)` with `len(p) = k`: `Read` until all is there. Bytes read before an error are lost; as in `Go/Bufio`, the end of the
stream after some bytes is `eof`. -/
def CRdr.readAll (acc : Bytes) (k : Nat) (r : CRdr) : Except IOErr Bytes × CRdr :=
  match k with
  | 0 => (.ok acc, r)
  | k + 1 =>
    match h : r.read (k + 1) with
    | (.error e, r') => (.error e, r')
    | (.ok bs, r') => readAll (acc ++ bs) (k + 1 - bs.length) r'
termination_by k
decreasing_by have := CRdr.read_some h; omega

def CRdr.readFull (r : CRdr) (n : Nat) : Except IOErr Bytes × CRdr := r.readAll [] n

end Ouro
