import Verif.Go.BufioArray
import Verif.Lemmas.Chunks
/-! # The reader with its array is the reader of the unread bytes -/
namespace Ouro

/-- What the reader is without its array. -/
def ARdr.view (a : ARdr) : CRdr := ⟨a.unread, a.err, a.net⟩

structure ARdr.WF (a : ARdr) : Prop where
  len : a.arr.length = bufSize
  rw : a.r ≤ a.w
  w : a.w ≤ bufSize

theorem ARdr.WF.unread {a : ARdr} (h : a.WF) : a.unread.length = a.w - a.r := by
  have := h.len; have := h.rw; have := h.w
  unfold ARdr.unread
  rw [List.length_take, List.length_drop]
  omega

theorem overwrite_len {α : Type} (l : List α) (i : Nat) (xs : List α) (h : i + xs.length ≤ l.length) : (overwrite l i xs).length = l.length := by
  unfold overwrite
  simp only [List.length_append, List.length_take, List.length_drop]
  omega

theorem sockRead_length {k : Nat} {net t : List Rd} {bs : Bytes} (h : sockRead k net = (.ok bs, t)) : bs.length ≤ k := by
  cases net with
  | nil => cases h
  | cons e net =>
    cases e with
    | data b more => simp only [sockRead, Prod.mk.injEq, Except.ok.injEq] at h; rw [← h.1, List.length_take]; omega
    | timeout => cases h
    | reset => cases h

theorem slide_view {a : ARdr} (h : a.WF) : a.slide.WF ∧ a.slide.unread = a.unread := by
  have h1 := h.len; have h2 := h.rw; have h3 := h.w; have hu := h.unread
  unfold ARdr.slide
  split
  · refine ⟨⟨?_, Nat.zero_le _, ?_⟩, ?_⟩
    · show (overwrite a.arr 0 a.unread).length = _
      rw [overwrite_len _ _ _ (by omega), h1]
    · show a.w - a.r ≤ _; omega
    · show ((overwrite a.arr 0 a.unread).drop 0).take (a.w - a.r - 0) = a.unread
      unfold overwrite
      rw [List.take_zero, List.nil_append, List.drop_zero, Nat.sub_zero, ← hu, List.take_left']
      rfl
  · exact ⟨h, rfl⟩

theorem take1_view {a : ARdr} (h : a.WF) (hr : a.r = 0) : a.take1.view = a.view.fill ∧ a.take1.WF := by
  have h1 := h.len; have h2 := h.rw; have h3 := h.w; have hu := h.unread
  have hw : a.unread.length = a.w := by omega
  have hu' : a.unread = a.arr.take a.w := by unfold ARdr.unread; rw [hr]; simp
  unfold ARdr.take1 CRdr.fill
  show _ = (match sockRead (bufSize - a.unread.length) a.net with
    | (.ok bs, t) => ({ a.view with buf := a.unread ++ bs, net := t } : CRdr)
    | (.error e, t) => { a.view with err := some e, net := t }) ∧ _
  rw [hw]
  cases hs : sockRead (bufSize - a.w) a.net with
  | mk x t =>
    cases x with
    | error e => exact ⟨rfl, ⟨h1, h2, h3⟩⟩
    | ok bs =>
      have hl := sockRead_length hs
      refine ⟨?_, ⟨?_, ?_, ?_⟩⟩
      · show (⟨((overwrite a.arr a.w bs).drop a.r).take (a.w + bs.length - a.r), a.err, t⟩ : CRdr) = ⟨a.unread ++ bs, a.err, t⟩
        congr 1
        rw [hr, List.drop_zero, Nat.sub_zero, hu']
        unfold overwrite
        apply List.take_left'
        simp only [List.length_append, List.length_take]
        omega
      · show (overwrite a.arr a.w bs).length = _
        rw [overwrite_len _ _ _ (by omega), h1]
      · show a.r ≤ a.w + bs.length; omega
      · show a.w + bs.length ≤ bufSize; omega

theorem fill_view {a : ARdr} (h : a.WF) : a.fill.view = a.view.fill ∧ a.fill.WF := by
  obtain ⟨h1, h2⟩ := slide_view h
  obtain ⟨e1, e2, e3, e4, _⟩ := a.slide_same
  have := take1_view h1 e4
  have hv : a.slide.view = a.view := by unfold ARdr.view; rw [h2, e1, e2]
  rw [hv] at this
  exact this

theorem todo_view (a : ARdr) : a.view.todo = a.todo := rfl

theorem afillTo_view (n : Nat) : ∀ (k : Nat) (a : ARdr), a.todo = k → a.WF → (a.fillTo n).view = a.view.fillTo n ∧ (a.fillTo n).WF := by
  intro k
  induction k using Nat.strongRecOn with
  | ind k ih =>
    intro a hk h
    have hu := h.unread
    rw [ARdr.fillTo, CRdr.fillTo]
    by_cases hc : a.w - a.r < n ∧ a.w - a.r < bufSize ∧ a.err = none
    · have hc' : a.view.buf.length < n ∧ a.view.buf.length < bufSize ∧ a.view.err = none := by
        show a.unread.length < n ∧ a.unread.length < bufSize ∧ a.err = none
        rw [hu]; exact hc
      rw [dif_pos hc, dif_pos hc', ← (fill_view h).1]
      exact ih _ (hk ▸ ARdr.fill_todo hc.2.2 hc.2.1) a.fill rfl (fill_view h).2
    · have hc' : ¬ (a.view.buf.length < n ∧ a.view.buf.length < bufSize ∧ a.view.err = none) := by
        show ¬ (a.unread.length < n ∧ a.unread.length < bufSize ∧ a.err = none)
        rw [hu]; exact hc
      rw [dif_neg hc, dif_neg hc']
      exact ⟨rfl, h⟩

theorem apeek_view {a : ARdr} (h : a.WF) (n : Nat) : ((a.peek n).1, (a.peek n).2.view) = a.view.peek n ∧ (a.peek n).2.WF := by
  obtain ⟨h1, h2⟩ := afillTo_view n _ a rfl h
  have hu := h2.unread
  unfold ARdr.peek ARdr.peekAt CRdr.peek
  dsimp only
  rw [← h1]
  generalize a.fillTo n = b at *
  have hb : b.view.buf.length = b.w - b.r := hu
  by_cases hn : n > bufSize
  · simp only [if_pos hn]; exact ⟨trivial, h2⟩
  · simp only [if_neg hn, hb]
    by_cases hl : b.w - b.r < n
    · simp only [if_pos hl]
      have hve : b.view.err = b.err := rfl
      rw [hve]
      cases b.err with
      | none => exact ⟨rfl, h2⟩
      | some e => exact ⟨rfl, ⟨h2.len, h2.rw, h2.w⟩⟩
    · simp only [if_neg hl]
      refine ⟨?_, h2⟩
      show ((Except.ok ((b.arr.drop b.r).take n) : Except IOErr Bytes), b.view) = (.ok (((b.arr.drop b.r).take (b.w - b.r)).take n), b.view)
      rw [List.take_take, Nat.min_eq_left (by omega)]

theorem adiscard_view {a : ARdr} (h : a.WF) (n : Nat) : (a.discard n).view = a.view.discard n ∧ (a.discard n).WF := by
  have := h.rw; have := h.w
  refine ⟨?_, ⟨h.len, ?_, h.w⟩⟩
  · show (⟨(a.arr.drop (min (a.r + n) a.w)).take (a.w - min (a.r + n) a.w), a.err, a.net⟩ : CRdr) = ⟨((a.arr.drop a.r).take (a.w - a.r)).drop n, a.err, a.net⟩
    congr 1
    rw [List.drop_take, List.drop_drop]
    by_cases hn : a.r + n ≤ a.w
    · rw [Nat.min_eq_left hn]; congr 1; omega
    · rw [Nat.min_eq_right (by omega), Nat.sub_self, show a.w - a.r - n = 0 by omega]; simp
  · show min _ _ ≤ a.w; omega

theorem areadByte_err {a : ARdr} {e : IOErr} (h : a.w - a.r = 0) (he : a.err = some e) : a.readByte = (.error e, { a with err := none }) := by
  rw [ARdr.readByte, dif_pos h]
  split
  · next h' => rw [he] at h'; injection h' with h'; subst h'; rfl
  · next h' => rw [he] at h'; cases h'

theorem areadByte_nil {a : ARdr} (h : a.w - a.r = 0) (he : a.err = none) : a.readByte = a.fill.readByte := by
  rw [ARdr.readByte, dif_pos h]
  split
  · next h' => rw [he] at h'; cases h'
  · rfl

theorem areadByte_view : ∀ (k : Nat) (a : ARdr), a.todo = k → a.WF → (a.readByte.1, a.readByte.2.view) = a.view.readByte ∧ a.readByte.2.WF := by
  intro k
  induction k using Nat.strongRecOn with
  | ind k ih =>
    intro a hk h
    have hu := h.unread
    have h1 := h.len; have h2 := h.rw; have h3 := h.w
    by_cases hc : a.w - a.r = 0
    · have hb : a.view.buf = [] := List.length_eq_zero_iff.1 (hu.trans hc)
      cases he : a.err with
      | some e =>
        rw [areadByte_err hc he, creadByte_err (r := a.view) hb he]
        exact ⟨rfl, ⟨h1, h2, h3⟩⟩
      | none =>
        rw [areadByte_nil hc he, creadByte_nil (r := a.view) hb he, ← (fill_view h).1]
        exact ih _ (hk ▸ ARdr.fill_todo he (by rw [hc]; decide)) a.fill rfl (fill_view h).2
    · rw [ARdr.readByte, dif_neg hc]
      have hlt : a.r < a.arr.length := by omega
      have hd : a.unread = a.arr.getD a.r 0 :: (a.arr.drop (a.r + 1)).take (a.w - (a.r + 1)) := by
        unfold ARdr.unread
        rw [List.drop_eq_getElem_cons hlt, show a.w - a.r = (a.w - (a.r + 1)) + 1 by omega, List.take_succ_cons]
        simp [List.getD_eq_getElem?_getD, List.getElem?_eq_getElem hlt]
      rw [creadByte_cons (r := a.view) hd]
      exact ⟨rfl, ⟨h1, by show a.r + 1 ≤ a.w; omega, h3⟩⟩

theorem areadString_err {a : ARdr} {acc : Bytes} {e : IOErr} (hc : cut 10 a.unread = none) (he : a.err = some e) :
    a.readString acc = (.error e, { a with r := a.w, err := none }) := by
  rw [ARdr.readString, hc]
  dsimp only
  split
  · next h' => rw [he] at h'; injection h' with h'; subst h'; rfl
  · next h' => rw [he] at h'; cases h'

theorem areadString_more {a : ARdr} {acc : Bytes} (hc : cut 10 a.unread = none) (he : a.err = none) :
    a.readString acc = if bufSize ≤ a.w - a.r then ARdr.readString (acc ++ a.unread) { a with r := a.w } else a.fill.readString acc := by
  rw [ARdr.readString, hc]
  dsimp only
  split
  · next h' => rw [he] at h'; cases h'
  · rfl

theorem creadString_err {a : CRdr} {acc : Bytes} {e : IOErr} (hc : cut 10 a.buf = none) (he : a.err = some e) :
    a.readString acc = (.error e, { a with buf := [], err := none }) := by
  rw [CRdr.readString, hc]
  dsimp only
  split
  · next h' => rw [he] at h'; injection h' with h'; subst h'; rfl
  · next h' => rw [he] at h'; cases h'

theorem creadString_more {a : CRdr} {acc : Bytes} (hc : cut 10 a.buf = none) (he : a.err = none) :
    a.readString acc = if bufSize ≤ a.buf.length then CRdr.readString (acc ++ a.buf) { a with buf := [] } else a.fill.readString acc := by
  rw [CRdr.readString, hc]
  dsimp only
  split
  · next h' => rw [he] at h'; cases h'
  · rfl

theorem empty_view (a : ARdr) (e : Option IOErr) (n : List Rd) : ({ a with r := a.w, err := e, net := n } : ARdr).unread = [] := by
  show (a.arr.drop a.w).take (a.w - a.w) = []
  rw [Nat.sub_self]; rfl

theorem areadString_view : ∀ (k : Nat) (a : ARdr) (acc : Bytes), a.todo * (bufSize + 1) + (a.w - a.r) = k → a.WF →
    ((a.readString acc).1, (a.readString acc).2.view) = a.view.readString acc ∧ (a.readString acc).2.WF := by
  intro k
  induction k using Nat.strongRecOn with
  | ind k ih =>
    intro a acc hk h
    have hu := h.unread
    have h1 := h.len; have h2 := h.rw; have h3 := h.w
    cases hc : cut 10 a.unread with
    | some p =>
      obtain ⟨l, b⟩ := p
      have e1 : a.readString acc = (.ok (acc ++ l ++ [10]), { a with r := a.r + l.length + 1 }) := by rw [ARdr.readString, hc]
      have e2 : a.view.readString acc = (.ok (acc ++ l ++ [10]), { a.view with buf := b }) := by
        have hc' : cut 10 a.view.buf = some (l, b) := hc
        rw [CRdr.readString, hc']
      rw [e1, e2]
      have hs := cut_some hc
      have hlen : a.w - a.r = l.length + 1 + b.length := by rw [← hu, hs.1]; simp; omega
      refine ⟨?_, ⟨h1, by show a.r + l.length + 1 ≤ a.w; omega, h3⟩⟩
      show ((Except.ok (acc ++ l ++ [10]) : Except IOErr Bytes), (⟨(a.arr.drop (a.r + l.length + 1)).take (a.w - (a.r + l.length + 1)), a.err, a.net⟩ : CRdr)) = (.ok (acc ++ l ++ [10]), ⟨b, a.err, a.net⟩)
      have : (a.arr.drop (a.r + l.length + 1)).take (a.w - (a.r + l.length + 1)) = a.unread.drop (l.length + 1) := by
        unfold ARdr.unread
        rw [List.drop_take, List.drop_drop, Nat.add_assoc, Nat.sub_sub]
      rw [this, hs.1]
      simp
    | none =>
      cases he : a.err with
      | some e =>
        rw [areadString_err hc he, creadString_err (a := a.view) hc he]
        refine ⟨?_, ⟨h1, Nat.le_refl _, h3⟩⟩
        show (Except.error e, (⟨_, none, a.net⟩ : CRdr)) = (.error e, ⟨[], none, a.net⟩)
        rw [empty_view a none a.net]
      | none =>
        have hb : a.view.buf.length = a.w - a.r := hu
        rw [areadString_more hc he, creadString_more (a := a.view) hc he, hb]
        by_cases hl : bufSize ≤ a.w - a.r
        · rw [if_pos hl, if_pos hl]
          have hp : 0 < bufSize := by decide
          have := ih (a.todo * (bufSize + 1) + 0) (by omega) { a with r := a.w } (acc ++ a.unread)
            (by show a.todo * (bufSize + 1) + (a.w - a.w) = _; rw [Nat.sub_self]) ⟨h1, Nat.le_refl _, h3⟩
          have hv : ({ a with r := a.w } : ARdr).view = { a.view with buf := [] } := by
            show (⟨_, a.err, a.net⟩ : CRdr) = ⟨[], a.err, a.net⟩
            rw [empty_view a a.err a.net]
          rw [hv] at this
          exact this
        · rw [if_neg hl, if_neg hl, ← (fill_view h).1]
          have hlt := ARdr.fill_todo he (by omega : a.w - a.r < bufSize)
          have hf := (fill_view h).2
          have hf1 := hf.w
          refine ih _ ?_ a.fill acc rfl hf
          have : a.fill.todo * (bufSize + 1) + (bufSize + 1) ≤ a.todo * (bufSize + 1) := by
            rw [← Nat.succ_mul]; exact Nat.mul_le_mul_right _ hlt
          omega

theorem aread_view {a : ARdr} (h : a.WF) (k : Nat) : ((a.read k).1, (a.read k).2.view) = a.view.read k ∧ (a.read k).2.WF := by
  have hu := h.unread
  have h1 := h.len; have h2 := h.rw; have h3 := h.w
  unfold ARdr.read CRdr.read
  by_cases hc : a.w - a.r = 0
  · have hb : a.view.buf = [] := List.length_eq_zero_iff.1 (hu.trans hc)
    have hb' : a.unread = [] := hb
    rw [if_pos hc, if_pos hb]
    have hve : a.view.err = a.err := rfl
    rw [hve]
    cases he : a.err with
    | some e => exact ⟨by simp [ARdr.view, hb', ARdr.unread, hc], ⟨h1, h2, h3⟩⟩
    | none =>
      dsimp only
      by_cases hk : bufSize ≤ k
      · rw [if_pos hk, if_pos hk]
        refine ⟨?_, ⟨h1, h2, h3⟩⟩
        rfl
      · rw [if_neg hk, if_neg hk]
        have hvn : a.view.net = a.net := rfl
        rw [hvn]
        cases hs : sockRead bufSize a.net with
        | mk x t =>
          cases x with
          | error e =>
            refine ⟨?_, ⟨h1, Nat.le_refl _, Nat.zero_le _⟩⟩
            show (Except.error e, (⟨(a.arr.drop 0).take (0 - 0), none, t⟩ : CRdr)) = (.error e, ⟨a.unread, none, t⟩)
            rw [hb']; rfl
          | ok bs =>
            have hl := sockRead_length hs
            refine ⟨?_, ⟨?_, Nat.min_le_right _ _, hl⟩⟩
            · show ((Except.ok (bs.take k) : Except IOErr Bytes), (⟨((overwrite a.arr 0 bs).drop (min k bs.length)).take (bs.length - min k bs.length), none, t⟩ : CRdr)) = (.ok (bs.take k), ⟨bs.drop k, none, t⟩)
              have : ((overwrite a.arr 0 bs).drop (min k bs.length)).take (bs.length - min k bs.length) = bs.drop k := by
                rw [← List.drop_take]
                unfold overwrite
                rw [List.take_zero, List.nil_append, List.take_left' rfl]
                by_cases hkl : k ≤ bs.length
                · rw [Nat.min_eq_left hkl]
                · rw [Nat.min_eq_right (by omega), List.drop_eq_nil_of_le (Nat.le_refl _), List.drop_eq_nil_of_le (by omega)]
              rw [this]
            · show (overwrite a.arr 0 bs).length = _
              rw [overwrite_len _ _ _ (by omega), h1]
  · have hb : a.view.buf ≠ [] := fun e => hc (by rw [← hu]; exact List.length_eq_zero_iff.2 e)
    rw [if_neg hc, if_neg hb]
    obtain ⟨d1, d2⟩ := adiscard_view h k
    refine ⟨?_, d2⟩
    show ((Except.ok (a.unread.take k) : Except IOErr Bytes), (a.discard k).view) = (.ok (a.unread.take k), a.view.discard k)
    rw [d1]

theorem areadAll_view : ∀ (k : Nat) (a : ARdr) (acc : Bytes), a.WF →
    ((a.readAll acc k).1, (a.readAll acc k).2.view) = a.view.readAll acc k ∧ (a.readAll acc k).2.WF := by
  intro k
  induction k using Nat.strongRecOn with
  | ind k ih =>
    intro a acc h
    cases k with
    | zero => rw [ARdr.readAll, CRdr.readAll]; exact ⟨rfl, h⟩
    | succ k =>
      obtain ⟨h1, h2⟩ := aread_view h (k + 1)
      rw [ARdr.readAll, CRdr.readAll]
      cases hr : a.read (k + 1) with
      | mk x b =>
        rw [hr] at h1 h2
        dsimp only at h1 h2
        cases x with
        | error e =>
          dsimp only
          split
          · next h' => rw [← h1] at h'; injection h' with e1 e2; injection e1 with e1; subst e1; subst e2; exact ⟨rfl, h2⟩
          · next h' => rw [← h1] at h'; injection h' with e1 e2; cases e1
        | ok bs =>
          dsimp only
          split
          · next h' => rw [← h1] at h'; injection h' with e1 e2; cases e1
          · next h' =>
            have hpos := CRdr.read_some h'
            rw [← h1] at h'
            injection h' with e1 e2
            injection e1 with e1
            subst e1
            subst e2
            rw [show k + 1 - bs.length = k - (bs.length - 1) by omega]
            exact ih _ (by omega) b (acc ++ bs) h2

end Ouro
