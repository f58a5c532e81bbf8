import Verif.Spec.Body
import Verif.Lemmas.BufioArray
import Verif.Props.Chunks
/-! # C86 with the array of the reader; C129: the body of a response -/
namespace Ouro
open Spec

def ARdr.Calm (a : ARdr) : Prop := a.WF ∧ a.view.Calm
def ARdr.evs (a : ARdr) : List Ev := a.view.evs

theorem array_meets : Meets arrayMethods ARdr.Calm ARdr.evs where
  size a h := chunk_meets.size a.view h.2
  peek_ok a n h hn hl := by
    obtain ⟨r', h1, h2, h3, h4, h5⟩ := chunk_meets.peek_ok a.view n h.2 hn hl
    obtain ⟨v1, v2⟩ := apeek_view h.1 n
    have hv := v1.trans h1
    injection hv with e1 e2
    subst e2
    obtain ⟨d1, d2⟩ := adiscard_view v2 n
    refine ⟨(a.peek n).2, Prod.ext e1 rfl, ⟨v2, h2⟩, h3, ⟨d2, ?_⟩, ?_⟩
    · show ((a.peek n).2.discard n).view.Calm
      rw [d1]; exact h4
    · show ((a.peek n).2.discard n).view.evs = _
      rw [d1]; exact h5
  peek_err a n h hn hl := by
    obtain ⟨r', h1, h2, h3⟩ := chunk_meets.peek_err a.view n h.2 hn hl
    obtain ⟨v1, v2⟩ := apeek_view h.1 n
    have hv := v1.trans h1
    injection hv with e1 e2
    subst e2
    exact ⟨(a.peek n).2, Prod.ext e1 rfl, ⟨v2, h2⟩, h3⟩
  peek_full a n h hn := by
    obtain ⟨r', h1⟩ := chunk_meets.peek_full a.view n h.2 hn
    obtain ⟨v1, v2⟩ := apeek_view h.1 n
    have hv := v1.trans h1
    injection hv with e1 e2
    exact ⟨(a.peek n).2, Prod.ext e1 rfl⟩
  byte_ok a b t h he := by
    obtain ⟨r', h1, h2, h3⟩ := chunk_meets.byte_ok a.view b t h.2 he
    obtain ⟨v1, v2⟩ := areadByte_view _ a rfl h.1
    have hv := v1.trans h1
    injection hv with e1 e2
    subst e2
    exact ⟨a.readByte.2, Prod.ext e1 rfl, ⟨v2, h2⟩, h3⟩
  byte_err a h he := by
    obtain ⟨r', h1, h2, h3⟩ := chunk_meets.byte_err a.view h.2 he
    obtain ⟨v1, v2⟩ := areadByte_view _ a rfl h.1
    have hv := v1.trans h1
    injection hv with e1 e2
    subst e2
    exact ⟨a.readByte.2, Prod.ext e1 rfl, ⟨v2, h2⟩, h3⟩
  line_ok a l t h hl he := by
    obtain ⟨r', h1, h2, h3⟩ := chunk_meets.line_ok a.view l t h.2 hl he
    obtain ⟨v1, v2⟩ := areadString_view _ a [] rfl h.1
    have hv := v1.trans h1
    injection hv with e1 e2
    subst e2
    exact ⟨(a.readString []).2, Prod.ext e1 rfl, ⟨v2, h2⟩, h3⟩
  line_err a h he := by
    obtain ⟨r', h1, h2, h3⟩ := chunk_meets.line_err a.view h.2 he
    obtain ⟨v1, v2⟩ := areadString_view _ a [] rfl h.1
    have hv := v1.trans h1
    injection hv with e1 e2
    subst e2
    exact ⟨(a.readString []).2, Prod.ext e1 rfl, ⟨v2, h2⟩, h3⟩
  full_ok a s t h he := by
    obtain ⟨r', h1, h2, h3⟩ := chunk_meets.full_ok a.view s t h.2 he
    obtain ⟨v1, v2⟩ := areadAll_view s.length a [] h.1
    have hv := v1.trans h1
    injection hv with e1 e2
    subst e2
    exact ⟨(a.readAll [] s.length).2, Prod.ext e1 rfl, ⟨v2, h2⟩, h3⟩
  full_err a n h he := by
    obtain ⟨r', h1, h2, h3⟩ := chunk_meets.full_err a.view n h.2 he
    obtain ⟨v1, v2⟩ := areadAll_view n a [] h.1
    have hv := v1.trans h1
    injection hv with e1 e2
    subst e2
    exact ⟨(a.readAll [] n).2, Prod.ext e1 rfl, ⟨v2, h2⟩, h3⟩

theorem newARdr_calm (net : List Rd) : (newARdr net).Calm ∧ (newARdr net).evs = delivered net := by
  refine ⟨⟨⟨?_, Nat.le_refl _, Nat.zero_le _⟩, ⟨rfl, ?_⟩⟩, ?_⟩
  · show (List.replicate bufSize 0).length = bufSize
    rw [List.length_replicate]
  · show ((newARdr net).arr.drop 0 |>.take (0 - 0)).length ≤ bufSize
    simp
  · rw [delivered_eq]
    show (((newARdr net).arr.drop 0).take (0 - 0)).map Ev.byte ++ netEvs net = _
    simp

/-- **C86.** With the array of `bufio.Reader`, its two positions and the moving of unread bytes, the client does what the model with single bytes
(Model/Main) says. -/
theorem C86_array (w : World) (c : Client) (net : List Rd) (sched : List CEv) :
    clientOf (cstepsM arrayMethods w (newARdr net) c sched) =
      (csteps w { c with rdr := ⟨[], none, delivered net⟩ } sched).map fun c' => { c' with rdr := c.rdr } := by
  rw [← C86_refines]
  refine both_client (same_steps array_meets chunk_meets w sched (fun _ => ⟨(newARdr_calm net).1, ⟨rfl, Nat.zero_le _⟩, ?_⟩))
  rw [(newARdr_calm net).2, delivered_eq]; rfl

/-! ## C129 -/

/-- The reader has only been read from, or the connection has been read from as well. -/
def Kept (a b : ARdr) : Prop := a.reads ≤ b.reads ∧ (b.reads = a.reads → b.arr = a.arr)

theorem Kept.refl (a : ARdr) : Kept a a := ⟨Nat.le_refl _, fun _ => rfl⟩
theorem Kept.trans {a b c : ARdr} (h : Kept a b) (h' : Kept b c) : Kept a c :=
  ⟨Nat.le_trans h.1 h'.1, fun e => by
    have := h.1; have := h'.1
    rw [h'.2 (by omega), h.2 (by omega)]⟩
theorem Kept.same {a b : ARdr} (h : b.reads = a.reads) (h' : b.arr = a.arr) : Kept a b := ⟨Nat.le_of_eq h.symm, fun _ => h'⟩
theorem Kept.more {a b : ARdr} (h : a.reads < b.reads) : Kept a b := ⟨Nat.le_of_lt h, fun e => by omega⟩

theorem fill_reads (a : ARdr) : a.fill.reads = a.reads + 1 := by
  unfold ARdr.fill ARdr.take1
  obtain ⟨_, _, _, _, h⟩ := a.slide_same
  split <;> (show a.slide.reads + 1 = _; rw [h])

theorem fill_kept (a : ARdr) : Kept a a.fill := .more (by rw [fill_reads]; omega)

theorem fillTo_kept (n : Nat) : ∀ (k : Nat) (a : ARdr), a.todo = k → Kept a (a.fillTo n) := by
  intro k
  induction k using Nat.strongRecOn with
  | ind k ih =>
    intro a hk
    rw [ARdr.fillTo]
    split
    · rename_i h
      exact (fill_kept a).trans (ih _ (hk ▸ ARdr.fill_todo h.2.2 h.2.1) a.fill rfl)
    · exact .refl a

theorem peekAt_kept (a : ARdr) (n : Nat) : Kept a (a.peekAt n).2 := by
  have := fillTo_kept n _ a rfl
  unfold ARdr.peekAt
  dsimp only
  repeat' split
  all_goals exact this

theorem peek_kept (a : ARdr) (n : Nat) : Kept a (a.peek n).2 := by
  have := peekAt_kept a n
  unfold ARdr.peek
  split <;> (rename_i h; rw [h] at this; exact this)

theorem readByte_kept : ∀ (k : Nat) (a : ARdr), a.todo = k → Kept a a.readByte.2 := by
  intro k
  induction k using Nat.strongRecOn with
  | ind k ih =>
    intro a hk
    by_cases hc : a.w - a.r = 0
    · cases he : a.err with
      | some e => rw [areadByte_err hc he]; exact .same rfl rfl
      | none =>
        rw [areadByte_nil hc he]
        exact (fill_kept a).trans (ih _ (hk ▸ ARdr.fill_todo he (by rw [hc]; decide)) a.fill rfl)
    · rw [ARdr.readByte, dif_neg hc]; exact .same rfl rfl

theorem readString_kept : ∀ (k : Nat) (a : ARdr) (acc : Bytes), a.todo = k → Kept a (a.readString acc).2 := by
  intro k
  induction k using Nat.strongRecOn with
  | ind k ih =>
    have fillCase : ∀ (a : ARdr) (acc : Bytes), a.todo = k → a.err = none → a.w - a.r < bufSize → Kept a (a.fill.readString acc).2 :=
      fun a acc hk he hl => (fill_kept a).trans (ih _ (hk ▸ ARdr.fill_todo he hl) a.fill acc rfl)
    intro a acc hk
    cases hc : cut 10 a.unread with
    | some p => rw [ARdr.readString, hc]; exact .same rfl rfl
    | none =>
      cases he : a.err with
      | some e => rw [areadString_err hc he]; exact .same rfl rfl
      | none =>
        rw [areadString_more hc he]
        split
        · have hu : ({ a with r := a.w } : ARdr).unread = [] := empty_view a a.err a.net
          have hc' : cut 10 ({ a with r := a.w } : ARdr).unread = none := by rw [hu]; rfl
          have he' : ({ a with r := a.w } : ARdr).err = none := he
          rw [areadString_more hc' he', if_neg (by show ¬ bufSize ≤ a.w - a.w; rw [Nat.sub_self]; decide)]
          have : Kept a { a with r := a.w } := .same rfl rfl
          exact this.trans (fillCase { a with r := a.w } _ hk he (by show a.w - a.w < bufSize; rw [Nat.sub_self]; decide))
        · exact fillCase a acc hk he (by omega)

theorem read_kept (a : ARdr) (k : Nat) : Kept a (a.read k).2 := by
  unfold ARdr.read
  split
  · split
    · exact .same rfl rfl
    · split
      · exact .more (Nat.lt_succ_self _)
      · split <;> exact .more (Nat.lt_succ_self _)
  · exact .same rfl rfl

theorem readAll_kept : ∀ (k : Nat) (a : ARdr) (acc : Bytes), Kept a (a.readAll acc k).2 := by
  intro k
  induction k using Nat.strongRecOn with
  | ind k ih =>
    intro a acc
    cases k with
    | zero => rw [ARdr.readAll]; exact .refl a
    | succ k =>
      have := read_kept a (k + 1)
      rw [ARdr.readAll]
      cases hr : a.read (k + 1) with
      | mk x b =>
        rw [hr] at this
        cases x with
        | error e => exact this
        | ok bs => exact this.trans (ih _ (by omega) b _)

theorem discard_kept (a : ARdr) (n : Nat) : Kept a (a.discard n) := .same rfl rfl
theorem readLine_kept (a : ARdr) : Kept a a.readLine.2 := readString_kept _ a [] rfl

theorem readBytesM_kept (a : ARdr) (n : Nat) : Kept a (readBytesM arrayMethods a n).2 := by
  have : Kept a (arrayMethods.peek a n).2 := peek_kept a n
  unfold readBytesM
  cases hp : arrayMethods.peek a n with
  | mk x b =>
    rw [hp] at this
    cases x with
    | error e => exact this
    | ok bs => exact this.trans (discard_kept b n)

theorem headerLoopM_kept : ∀ (fuel : Nat) (a : ARdr) (h : Header), Kept a (headerLoopM arrayMethods fuel a h).2 := by
  intro fuel
  induction fuel with
  | zero => exact fun a _ => .refl a
  | succ n ih =>
    intro a h
    have : Kept a (arrayMethods.readLine a).2 := readLine_kept a
    rw [headerLoopM]
    cases hp : arrayMethods.readLine a with
    | mk x b =>
      rw [hp] at this
      cases x with
      | error e => exact this
      | ok line =>
        dsimp only
        repeat' split
        all_goals first | exact this | exact this.trans (ih _ _)

theorem unpackRspM_kept (a : ARdr) : Kept a (unpackRspM arrayMethods a).2 := by
  have h1 : Kept a (arrayMethods.readLine a).2 := readLine_kept a
  unfold unpackRspM
  cases hp : arrayMethods.readLine a with
  | mk x b =>
    rw [hp] at h1
    cases x with
    | error e => exact h1
    | ok line =>
      dsimp only
      split
      · exact h1
      · have h2 := headerLoopM_kept (arrayMethods.size b + 1) b []
        cases hh : headerLoopM arrayMethods (arrayMethods.size b + 1) b [] with
        | mk y c =>
          rw [hh] at h2
          cases y with
          | error e => exact h1.trans h2
          | ok h =>
            dsimp only
            split
            · have h3 := readBytesM_kept c (contentLen (h.get b!"Content-Length")).toNat
              cases hb : readBytesM arrayMethods c (contentLen (h.get b!"Content-Length")).toNat with
              | mk z d =>
                rw [hb] at h3
                cases z <;> exact (h1.trans h2).trans h3
            · exact h1.trans h2

theorem recvFrameM_kept (a : ARdr) : Kept a (recvFrameM arrayMethods a).2 := by
  have h1 : Kept a (arrayMethods.readByte (arrayMethods.discard a 1)).2 :=
    (discard_kept a 1).trans (readByte_kept _ (a.discard 1) rfl)
  unfold recvFrameM
  cases hp : arrayMethods.readByte (arrayMethods.discard a 1) with
  | mk x b =>
    rw [hp] at h1
    cases x with
    | error e => exact h1
    | ok ch =>
      dsimp only
      have h2 : Kept b (readUint16M arrayMethods b).2 := by
        have : Kept b (arrayMethods.readFull b 2).2 := readAll_kept 2 b []
        unfold readUint16M
        cases hf : arrayMethods.readFull b 2 with
        | mk y c =>
          rw [hf] at this
          cases y <;> exact this
      cases hu : readUint16M arrayMethods b with
      | mk y c =>
        rw [hu] at h2
        cases y with
        | error e => exact h1.trans h2
        | ok n =>
          dsimp only
          have h3 := readBytesM_kept c n
          cases hb : readBytesM arrayMethods c n with
          | mk z d =>
            rw [hb] at h3
            cases z <;> exact (h1.trans h2).trans h3

theorem recvM_after (a : ARdr) : Kept (a.peek 1).2 (recvM arrayMethods a).2 := by
  have h1 : Kept (a.peek 1).2 (arrayMethods.peek a 1).2 := .refl _
  unfold recvM
  cases hp : arrayMethods.peek a 1 with
  | mk x b =>
    rw [hp] at h1
    cases x with
    | error e => exact h1
    | ok bs =>
      dsimp only
      split
      · exact h1.trans (recvFrameM_kept b)
      · have h2 := unpackRspM_kept b
        cases hu : unpackRspM arrayMethods b with
        | mk y c =>
          rw [hu] at h2
          cases y <;> exact h1.trans h2

theorem recvM_kept (a : ARdr) : Kept a (recvM arrayMethods a).2 := (peek_kept a 1).trans (recvM_after a)

theorem readOn_kept : ∀ (n : Nat) (a : ARdr), Kept a (readOn n a) := by
  intro n
  induction n with
  | zero => exact fun a => .refl a
  | succ n ih => exact fun a => (recvM_kept a).trans (ih _)

/-- **C129.** Bytes that were returned stay as they are for as many messages as come from what has already been read from the connection. -/
theorem C129_buffered_partial (a : ARdr) (place : Nat × Nat) (n : Nat) (h : (readOn n a).reads = a.reads) :
    shows (readOn n a) place = shows a place := by
  unfold shows
  rw [(readOn_kept n a).2 h]

theorem part_shows (a : ARdr) (p : Nat × Nat) : a.part p = shows a p := rfl

theorem peekAt_place {a a' : ARdr} {n : Nat} {p : Nat × Nat} (h : a.peekAt n = (.ok p, a')) : p = (a'.r, n) ∧ n ≤ a'.w - a'.r := by
  unfold ARdr.peekAt at h
  dsimp only at h
  split at h
  · injection h with h _; cases h
  · split at h
    · split at h <;> (injection h with h _; cases h)
    · injection h with h1 h2
      injection h1 with h1
      subst h2
      exact ⟨h1.symm, by omega⟩

theorem readBytes_at (a : ARdr) (n : Nat) (hn : 0 < n) :
    match a.readBytesAt n with
    | (.ok p, a') => p.2 = n ∧ p.1 + n = a'.r ∧ readBytesM arrayMethods a n = (.ok (shows a' p), a')
    | (.error e, a') => readBytesM arrayMethods a n = (.error e, a') := by
  have hm : arrayMethods.peek a n = a.peek n := rfl
  unfold ARdr.readBytesAt readBytesM
  rw [hm]
  unfold ARdr.peek
  cases hp : a.peekAt n with
  | mk x b =>
    cases x with
    | error e => rfl
    | ok p =>
      obtain ⟨rfl, hl⟩ := peekAt_place hp
      refine ⟨rfl, ?_, rfl⟩
      show b.r + n = min (b.r + n) b.w
      omega

/-- What `Unpack` returns is what it shows when it returns, and it is what precedes the position of the reader. -/
theorem unpack_at (a : ARdr) :
    match unpackRspAt a with
    | (.ok (rsp, place), a') =>
      unpackRspM arrayMethods a = (.ok { rsp with body := place.map (shows a') }, a') ∧ ∀ p ∈ place, (p.2 : Int) = rsp.contentLength ∧ p.1 + p.2 = a'.r
    | (.error e, a') => unpackRspM arrayMethods a = (.error e, a') := by
  have hm : arrayMethods.readLine a = a.readLine := rfl
  unfold unpackRspAt unpackRspM
  rw [hm]
  cases hl : a.readLine with
  | mk x b =>
    cases x with
    | error e => rfl
    | ok line =>
      dsimp only
      cases hs : statusLine b!"RTSP/1.0" line with
      | error e => rfl
      | ok sc =>
        obtain ⟨status, code⟩ := sc
        dsimp only
        cases hh : headerLoopM arrayMethods (arrayMethods.size b + 1) b [] with
        | mk y c =>
          cases y with
          | error e => rfl
          | ok h =>
            dsimp only
            by_cases hc : contentLen (h.get b!"Content-Length") > 0
            · rw [if_pos hc, if_pos hc]
              have := readBytes_at c (contentLen (h.get b!"Content-Length")).toNat (by omega)
              cases hb : c.readBytesAt (contentLen (h.get b!"Content-Length")).toNat with
              | mk z d =>
                rw [hb] at this
                cases z with
                | error e => dsimp only at this ⊢; rw [this]
                | ok p =>
                  obtain ⟨h1, h2, h3⟩ := this
                  dsimp only
                  rw [h3]
                  refine ⟨rfl, fun q hq => ?_⟩
                  cases hq
                  refine ⟨?_, by omega⟩
                  rw [h1]; omega
            · rw [if_neg hc, if_neg hc]
              exact ⟨rfl, by simp⟩

theorem overwrite_get {α : Type} (l xs : List α) (h : xs.length ≤ l.length) (i : Nat) :
    (overwrite l 0 xs)[i]? = if i < xs.length then xs[i]? else l[i]? := by
  unfold overwrite
  rw [List.take_zero, List.nil_append, Nat.zero_add]
  split
  · next hi => rw [List.getElem?_append_left hi]
  · next hi =>
    rw [List.getElem?_append_right (by omega), List.getElem?_drop]
    congr 1
    omega

theorem part_eq_iff (l m : Bytes) (p : Nat × Nat) (h : m.length = l.length) :
    (m.drop p.1).take p.2 = (l.drop p.1).take p.2 ↔ ∀ i, p.1 ≤ i → i < p.1 + p.2 → m[i]? = l[i]? := by
  constructor
  · intro e i h1 h2
    have := congrArg (fun x : Bytes => x[i - p.1]?) e
    rw [List.getElem?_take_of_lt (by omega), List.getElem?_take_of_lt (by omega), List.getElem?_drop, List.getElem?_drop,
      show p.1 + (i - p.1) = i by omega] at this
    exact this
  · intro hi
    apply List.ext_getElem?
    intro k
    by_cases hk : k < p.2
    · rw [List.getElem?_take_of_lt hk, List.getElem?_take_of_lt hk, List.getElem?_drop, List.getElem?_drop]
      exact hi _ (by omega) (by omega)
    · rw [List.getElem?_eq_none, List.getElem?_eq_none] <;> (rw [List.length_take]; omega)

theorem fillTo_done {a : ARdr} {n : Nat} (h : n ≤ a.w - a.r) : a.fillTo n = a := by
  rw [ARdr.fillTo, dif_neg (by omega)]

/-- The array after looking at the next message, with nothing left over. -/
theorem peek1_arr (a : ARdr) (hr : a.r = a.w) (he : a.err = none) (b : UInt8) (more : Bytes) (t : List Rd)
    (hn : a.net = .data b more :: t) (hl : (b :: more).length ≤ bufSize) :
    (a.peek 1).2.arr = overwrite a.arr 0 (b :: more) ∧ (a.peek 1).2.reads = a.reads + 1 := by
  have hu : a.unread = [] := by unfold ARdr.unread; rw [hr, Nat.sub_self, List.take_zero]
  obtain ⟨s1, s2, s3, s4, s5⟩ := a.slide_same
  have sa : a.slide.arr = a.arr := by
    unfold ARdr.slide
    split
    · show overwrite a.arr 0 a.unread = _
      rw [hu]
      show [] ++ [] ++ a.arr.drop (0 + 0) = a.arr
      simp
    · rfl
  have hw : a.slide.w = 0 := by rw [s3, hr, Nat.sub_self]
  have hf : a.fill = { a.slide with arr := overwrite a.arr 0 (b :: more), w := (b :: more).length, net := t, reads := a.reads + 1 } := by
    unfold ARdr.fill ARdr.take1
    rw [s2, hn, hw, Nat.sub_zero, sockRead, List.take_of_length_le hl, List.drop_of_length_le hl, s5, sa]
    simp only [Nat.zero_add]
    rfl
  have h1 : a.fillTo 1 = a.fill := by
    rw [ARdr.fillTo, dif_pos ⟨by omega, by rw [hr, Nat.sub_self]; decide, he⟩]
    refine fillTo_done ?_
    rw [hf]
    show 1 ≤ (b :: more).length - a.slide.r
    rw [s4]; simp
  have h2 : ¬ (a.fill.w - a.fill.r < 1) := by
    rw [hf]
    show ¬ ((b :: more).length - a.slide.r < 1)
    rw [s4]; simp
  have h3 : (a.peek 1).2 = a.fill := by
    unfold ARdr.peek ARdr.peekAt
    dsimp only
    rw [h1, if_neg (by decide), if_neg h2]
  rw [h3, hf]
  exact ⟨rfl, rfl⟩

/-- **C129.** Beyond that: nothing is left over, and the messages that follow come with one `Read` of the connection. The bytes are as they were exactly
if what was read has the same bytes in the same places. -/
theorem C129_iff (a : ARdr) (ha : a.arr.length = bufSize) (place : Nat × Nat) (hr : a.r = a.w) (he : a.err = none)
    (b : UInt8) (more : Bytes) (t : List Rd) (hn : a.net = .data b more :: t) (hl : (b :: more).length ≤ bufSize)
    (n : Nat) (hone : (readOn (n + 1) a).reads = a.reads + 1) :
    shows (readOn (n + 1) a) place = shows a place ↔
      ∀ i, place.1 ≤ i → i < place.1 + place.2 → i < (b :: more).length → (b :: more)[i]? = a.arr[i]? := by
  obtain ⟨p1, p2⟩ := peek1_arr a hr he b more t hn hl
  have hk : Kept (a.peek 1).2 (readOn (n + 1) a) := (recvM_after a).trans (readOn_kept n _)
  unfold shows
  rw [hk.2 (by rw [hone, p2]), p1, part_eq_iff _ _ _ (overwrite_len _ _ _ (by rw [ha]; omega))]
  constructor
  · intro h i h1 h2 h3
    have := h i h1 h2
    rw [overwrite_get _ _ (by omega), if_pos h3] at this
    exact this
  · intro h i h1 h2
    rw [overwrite_get _ _ (by omega)]
    split
    · next h3 => exact h i h1 h2 h3
    · rfl

/-! ### A case, calculated: the loops again, with a number of turns -/

def fillToF : Nat → Nat → ARdr → ARdr
  | 0, _, a => a
  | k + 1, n, a => if a.w - a.r < n ∧ a.w - a.r < bufSize ∧ a.err = none then fillToF k n a.fill else a

theorem fillTo_fuel (n : Nat) : ∀ (k : Nat) (a : ARdr), a.todo < k → a.fillTo n = fillToF k n a := by
  intro k
  induction k with
  | zero => intro a h; omega
  | succ k ih =>
    intro a h
    rw [ARdr.fillTo, fillToF]
    split
    · rename_i hc
      have := ARdr.fill_todo hc.2.2 hc.2.1
      exact ih _ (by omega)
    · rfl

def readByteF : Nat → ARdr → Except IOErr UInt8 × ARdr
  | 0, a => (.error .eof, a)
  | k + 1, a =>
    if a.w - a.r = 0 then
      match a.err with
      | some e => (.error e, { a with err := none })
      | none => readByteF k a.fill
    else (.ok (a.arr.getD a.r 0), { a with r := a.r + 1 })

theorem readByte_fuel : ∀ (k : Nat) (a : ARdr), a.todo < k → a.readByte = readByteF k a := by
  intro k
  induction k with
  | zero => intro a h; omega
  | succ k ih =>
    intro a h
    rw [readByteF]
    by_cases hc : a.w - a.r = 0
    · rw [if_pos hc]
      cases he : a.err with
      | some e => rw [areadByte_err hc he]
      | none =>
        rw [areadByte_nil hc he]
        have := ARdr.fill_todo he (by rw [hc]; decide)
        exact ih _ (by omega)
    · rw [if_neg hc, ARdr.readByte, dif_neg hc]

def readStringF : Nat → Bytes → ARdr → Except IOErr Bytes × ARdr
  | 0, _, a => (.error .eof, a)
  | k + 1, acc, a =>
    match cut 10 a.unread with
    | some (l, _) => (.ok (acc ++ l ++ [10]), { a with r := a.r + l.length + 1 })
    | none =>
      match a.err with
      | some e => (.error e, { a with r := a.w, err := none })
      | none => if bufSize ≤ a.w - a.r then readStringF k (acc ++ a.unread) { a with r := a.w } else readStringF k acc a.fill

theorem readString_fuel : ∀ (k : Nat) (acc : Bytes) (a : ARdr), 2 * a.todo + (if bufSize ≤ a.w - a.r then 1 else 0) < k →
    a.readString acc = readStringF k acc a := by
  intro k
  induction k with
  | zero => intro acc a h; omega
  | succ k ih =>
    intro acc a h
    rw [readStringF]
    cases hc : cut 10 a.unread with
    | some p => rw [ARdr.readString, hc]
    | none =>
      cases he : a.err with
      | some e => rw [areadString_err hc he]
      | none =>
        rw [areadString_more hc he]
        dsimp only
        split
        · rename_i hl
          rw [if_pos hl] at h
          rw [← he]
          refine ih _ _ ?_
          rw [if_neg (by show ¬ bufSize ≤ a.w - a.w; rw [Nat.sub_self]; decide)]
          show 2 * a.todo + 0 < k
          omega
        · rename_i hl
          rw [if_neg hl] at h
          have := ARdr.fill_todo he (by omega)
          refine ih _ _ ?_
          split <;> omega

def readAllF : Nat → Bytes → Nat → ARdr → Except IOErr Bytes × ARdr
  | 0, acc, _, a => (.ok acc, a)
  | f + 1, acc, k, a =>
    match k with
    | 0 => (.ok acc, a)
    | k + 1 =>
      match a.read (k + 1) with
      | (.error e, a) => (.error e, a)
      | (.ok bs, a) => readAllF f (acc ++ bs) (k - (bs.length - 1)) a

theorem readAll_fuel : ∀ (f : Nat) (acc : Bytes) (k : Nat) (a : ARdr), k < f → a.readAll acc k = readAllF f acc k a := by
  intro f
  induction f with
  | zero => intro acc k a h; omega
  | succ f ih =>
    intro acc k a h
    cases k with
    | zero => rw [ARdr.readAll]; rfl
    | succ k =>
      rw [ARdr.readAll, readAllF]
      cases a.read (k + 1) with
      | mk x b =>
        cases x with
        | error e => rfl
        | ok bs => exact ih _ _ _ (by omega)

def fuelMethods : Methods ARdr where
  peek a n :=
    let a := fillToF (a.todo + 1) n a
    if n > bufSize then (.error .bufferFull, a)
    else if a.w - a.r < n then
      match a.err with
      | some e => (.error e, { a with err := none })
      | none => (.error .bufferFull, a)
    else (.ok (a.part (a.r, n)), a)
  discard := ARdr.discard
  readByte a := readByteF (a.todo + 1) a
  readLine a := readStringF (2 * a.todo + 2) [] a
  readFull a n := readAllF (n + 1) [] n a
  size a := a.unread.length + netSize a.net

theorem array_fuel : arrayMethods = fuelMethods := by
  unfold arrayMethods fuelMethods
  congr 1
  · funext a n
    unfold ARdr.peek ARdr.peekAt
    rw [fillTo_fuel n (a.todo + 1) a (Nat.lt_succ_self _)]
    dsimp only
    by_cases h1 : n > bufSize
    · rw [if_pos h1, if_pos h1]
    · rw [if_neg h1, if_neg h1]
      by_cases h2 : (fillToF (a.todo + 1) n a).w - (fillToF (a.todo + 1) n a).r < n
      · rw [if_pos h2, if_pos h2]
        cases (fillToF (a.todo + 1) n a).err <;> rfl
      · rw [if_neg h2, if_neg h2]
  · funext a; exact readByte_fuel _ a (Nat.lt_succ_self _)
  · funext a
    refine readString_fuel _ [] a ?_
    split <;> omega
  · funext a n; exact readAll_fuel _ [] n a (Nat.lt_succ_self _)

/-- Two responses, each in one piece; the second is longer than the first. -/
def demoBodies : List Rd :=
  [.data 82 (b!"TSP/1.0 200 OK\r\nCSeq: 2\r\nContent-Length: 4\r\n\r\nv=0\n"),
   .data 82 (b!"TSP/1.0 200 OK\r\nCSeq: 3\r\nSession: 12345678;timeout=60\r\n\r\n")]

theorem demo_unpack : ∃ rsp, unpackRspAt (newARdr demoBodies) = (.ok (rsp, some (47, 4)), (unpackRspM fuelMethods (newARdr demoBodies)).2) := by
  have h1 : (unpackRspM fuelMethods (newARdr demoBodies)).1.toOption.map (fun r => (r.body, r.contentLength)) = some (some (b!"v=0\n"), 4) := by
    decide +kernel
  have h2 : (unpackRspM fuelMethods (newARdr demoBodies)).2.r = 51 := by decide +kernel
  have u := unpack_at (newARdr demoBodies)
  rw [array_fuel] at u
  cases hu : unpackRspAt (newARdr demoBodies) with
  | mk x a' =>
    rw [hu] at u
    cases x with
    | error e =>
      dsimp only at u
      rw [u] at h1
      cases h1
    | ok y =>
      obtain ⟨rsp, place⟩ := y
      dsimp only at u
      obtain ⟨e, hp⟩ := u
      rw [e] at h1 h2 ⊢
      cases place with
      | none =>
        injection h1 with h1; injection h1 with h1 _; cases h1
      | some p =>
        injection h1 with h1; injection h1 with _ h1
        obtain ⟨q1, q2⟩ := hp p rfl
        have h1' : rsp.contentLength = 4 := h1
        have h2' : a'.r = 51 := h2
        have e1 : p.2 = 4 := by omega
        have e2 : p.1 = 47 := by omega
        have : p = (47, 4) := Prod.ext e2 e1
        rw [this]
        exact ⟨rsp, rfl⟩

/-- **C129.** The body of a response need not stay as it is when the next message is received: here it becomes `eout`, from `timeout=60`. -/
theorem C129_refuted : ¬ ∀ (net : List Rd) (rsp : Response) (place : Nat × Nat) (a : ARdr) (n : Nat),
    unpackRspAt (newARdr net) = (.ok (rsp, some place), a) → shows (readOn n a) place = shows a place := by
  intro h
  obtain ⟨rsp, e⟩ := demo_unpack
  have := h demoBodies rsp _ _ 1 e
  have e1 : ∀ a, readOn 1 a = (recvM fuelMethods a).2 := fun a => by rw [← array_fuel]; rfl
  rw [e1] at this
  revert this
  decide +kernel

theorem one_more (a : ARdr) : readOn 1 a = (recvM fuelMethods a).2 := by rw [← array_fuel]; rfl

/-- Both responses in one piece: the body stays while the second is received. -/
example : let a := (unpackRspM fuelMethods (newARdr [.data 82 (b!"TSP/1.0 200 OK\r\nCSeq: 2\r\nContent-Length: 4\r\n\r\nv=0\nRTSP/1.0 200 OK\r\nCSeq: 3\r\n\r\n")])).2
    shows (readOn 1 a) (47, 4) = shows a (47, 4) :=
  C129_buffered_partial _ _ 1 (by rw [one_more]; decide +kernel)

/-- In two pieces: one `Read`, and the body is not what it was. -/
example : let a := (unpackRspM fuelMethods (newARdr demoBodies)).2
    ¬ shows (readOn 1 a) (47, 4) = shows a (47, 4) := by
  intro a
  rw [C129_iff a (by decide +kernel) (47, 4) (by decide +kernel) (by decide +kernel) 82
    (b!"TSP/1.0 200 OK\r\nCSeq: 3\r\nSession: 12345678;timeout=60\r\n\r\n") [] rfl (by decide +kernel) 0 (by rw [one_more]; decide +kernel)]
  intro h
  exact absurd (h 47 (by decide) (by decide) (by decide)) (by decide +kernel)

/-- Pieces of any size: the client on the array. -/
example (w : World) (c : Client) (sched : List CEv) : clientOf (cstepsM arrayMethods w (newARdr demoBodies) c sched) =
    (csteps w { c with rdr := ⟨[], none, delivered demoBodies⟩ } sched).map fun c' => { c' with rdr := c.rdr } :=
  C86_array w c demoBodies sched

end Ouro
