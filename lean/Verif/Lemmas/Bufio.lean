import Verif.Lemmas.Strings
import Verif.Model.Message
/-! # Lemmas about the buffered reader -/
namespace Ouro

/-- Everything a reader without pending error will deliver. -/
def Rdr.evs (r : Rdr) : List Ev := r.buf.map .byte ++ r.net

theorem byteEv_inj {a b : UInt8} (h : Ev.byte a = Ev.byte b) : a = b := by injection h

theorem byteMap_inj : ∀ {a b : Bytes}, a.map Ev.byte = b.map Ev.byte → a = b := by
  intro a
  induction a with
  | nil => intro b h; cases b with
    | nil => rfl
    | cons => cases h
  | cons x a ih => intro b h; cases b with
    | nil => cases h
    | cons y b =>
      injection h with h1 h2
      injection h1 with h1
      rw [h1, ih h2]

theorem fillLoop_done {m : Nat} {buf : Bytes} (h : m ≤ buf.length) (net : List Ev) : fillLoop m buf net = ⟨buf, none, net⟩ := by
  cases net with
  | nil => simp only [fillLoop]; rw [if_neg (by omega)]
  | cons e t => cases e <;> (simp only [fillLoop]; rw [if_neg (by omega)])

/-- Enough bytes: they get buffered, nothing is lost. -/
theorem fillLoop_bytes (m : Nat) : ∀ (net : List Ev) (buf s : Bytes) (rest : List Ev), buf.map .byte ++ net = s.map .byte ++ rest →
    m ≤ s.length → (fillLoop m buf net).err = none ∧ (fillLoop m buf net).evs = s.map .byte ++ rest ∧
    m ≤ (fillLoop m buf net).buf.length := by
  intro net
  induction net with
  | nil =>
    intro buf s rest h hm
    have hl := congrArg List.length h
    simp only [List.append_nil, List.length_append, List.length_map] at hl
    rw [fillLoop_done (by omega)]
    exact ⟨rfl, h, by show m ≤ buf.length; omega⟩
  | cons e t ih =>
    intro buf s rest h hm
    by_cases hb : m ≤ buf.length
    · rw [fillLoop_done hb]; exact ⟨rfl, h, hb⟩
    · have he : (buf.map Ev.byte ++ e :: t)[buf.length]? = some e := by simp
      rw [h, List.getElem?_append_left (by simp; omega), List.getElem?_map] at he
      cases hs : s[buf.length]? with
      | none => rw [hs] at he; cases he
      | some b =>
        rw [hs] at he
        injection he with he
        subst he
        have := ih (buf ++ [b]) s rest (by simpa using h) hm
        simp only [fillLoop]
        rw [if_pos (by omega)]
        exact this

theorem evs_take {r : Rdr} {s : Bytes} {rest : List Ev} (h : r.evs = s.map .byte ++ rest) {n : Nat} (hn : n ≤ s.length)
    (hb : n ≤ r.buf.length) : r.buf.take n = s.take n ∧ ({ r with buf := r.buf.drop n } : Rdr).evs = (s.drop n).map .byte ++ rest := by
  unfold Rdr.evs at h
  have h1 := congrArg (List.take n) h
  rw [List.take_append_of_le_length (by simpa using hb), List.take_append_of_le_length (by simpa using hn),
    ← List.map_take, ← List.map_take] at h1
  have h2 := congrArg (List.drop n) h
  rw [List.drop_append_of_le_length (by simpa using hb), List.drop_append_of_le_length (by simpa using hn),
    ← List.map_drop, ← List.map_drop] at h2
  exact ⟨byteMap_inj h1, h2⟩

theorem peek_ok {r : Rdr} {s : Bytes} {rest : List Ev} (he : r.err = none) (h : r.evs = s.map .byte ++ rest) {n : Nat} (hn : n ≤ s.length)
    (hb : n ≤ bufSize) : ∃ r', r.peek n = (.ok (s.take n), r') ∧ r'.err = none ∧ r'.evs = s.map .byte ++ rest ∧ n ≤ r'.buf.length := by
  obtain ⟨h1, h2, h3⟩ := fillLoop_bytes (min n bufSize) r.net r.buf s rest h (by omega)
  refine ⟨fillLoop (min n bufSize) r.buf r.net, ?_, h1, h2, by omega⟩
  unfold Rdr.peek
  rw [if_pos he]
  dsimp only
  rw [if_neg (by omega), if_neg (by omega), (evs_take h2 hn (by omega)).1]

theorem readBytes_ok {r : Rdr} {s : Bytes} {rest : List Ev} (he : r.err = none) (h : r.evs = s.map .byte ++ rest) (hb : s.length ≤ bufSize) :
    ∃ r', r.readBytes s.length = (.ok s, r') ∧ r'.err = none ∧ r'.evs = rest := by
  obtain ⟨r', h1, h2, h3, h4⟩ := peek_ok he h (Nat.le_refl _) hb
  refine ⟨r'.discard s.length, ?_, h2, ?_⟩
  · unfold Rdr.readBytes; rw [h1]; simp
  · have := (evs_take h3 (Nat.le_refl _) h4).2
    simpa [Rdr.discard] using this

theorem readByte_ok {r : Rdr} {b : UInt8} {rest : List Ev} (he : r.err = none) (h : r.evs = .byte b :: rest) :
    ∃ r', r.readByte = (.ok b, r') ∧ r'.err = none ∧ r'.evs = rest := by
  obtain ⟨h1, h2, h3⟩ := fillLoop_bytes 1 r.net r.buf [b] rest h (by simp)
  unfold Rdr.readByte
  rw [if_pos he]
  dsimp only
  generalize fillLoop 1 r.buf r.net = q at *
  obtain ⟨buf, err, net⟩ := q
  cases buf with
  | nil => simp at h3
  | cons c t =>
    have h2' : Ev.byte c :: (t.map Ev.byte ++ net) = Ev.byte b :: rest := h2
    injection h2' with h4 h5
    injection h4 with h4
    subst h4
    exact ⟨_, rfl, h1, h5⟩

theorem lineLoop_ok : ∀ (net : List Ev) (acc l : Bytes) (rest : List Ev), net = l.map .byte ++ .byte 10 :: rest → (10 : UInt8) ∉ l →
    lineLoop acc net = (.ok (acc ++ l ++ [10]), ⟨[], none, rest⟩) := by
  intro net
  induction net with
  | nil => intro acc l rest h; simp at h
  | cons e t ih =>
    intro acc l rest h hl
    cases l with
    | nil =>
      injection h with h1 h2
      subst h1 h2
      simp [lineLoop]
    | cons c l =>
      injection h with h1 h2
      subst h1
      simp only [lineLoop]
      rw [if_neg (fun hc => hl (by simp [hc])), ih (acc ++ [c]) l rest h2 (fun hm => hl (by simp [hm]))]
      simp

theorem readLine_ok {r : Rdr} {l : Bytes} {rest : List Ev} (he : r.err = none) (h : r.evs = (l ++ [10]).map .byte ++ rest) (hl : (10 : UInt8) ∉ l) :
    ∃ r', r.readLine = (.ok (l ++ [10]), r') ∧ r'.err = none ∧ r'.evs = rest := by
  unfold Rdr.readLine
  unfold Rdr.evs at h
  cases hc : cut 10 r.buf with
  | some ab =>
    obtain ⟨a, b⟩ := ab
    obtain ⟨h1, h2⟩ := cut_some hc
    dsimp only
    rw [h1] at h
    have key : ∀ (a l : Bytes) (x y : List Ev), (10 : UInt8) ∉ a → (10 : UInt8) ∉ l →
        a.map Ev.byte ++ Ev.byte 10 :: x = l.map Ev.byte ++ Ev.byte 10 :: y → a = l ∧ x = y := by
      intro a
      induction a with
      | nil =>
        intro l x y _ hl h
        cases l with
        | nil => injection h with _ h; exact ⟨rfl, h⟩
        | cons c l => injection h with h _; injection h with h; exact absurd (by simp [h]) hl
      | cons d a ih =>
        intro l x y ha hl h
        cases l with
        | nil => injection h with h _; injection h with h; exact absurd (by simp [h]) ha
        | cons c l =>
          injection h with h1 h2
          injection h1 with h1
          obtain ⟨h3, h4⟩ := ih l x y (fun hm => ha (by simp [hm])) (fun hm => hl (by simp [hm])) h2
          exact ⟨by rw [h1, h3], h4⟩
    obtain ⟨h3, h4⟩ := key a l (b.map .byte ++ r.net) rest h2 hl (by simpa using h)
    subst h3
    exact ⟨{ r with buf := b }, rfl, he, h4⟩
  | none =>
    dsimp only
    rw [he]
    dsimp only
    have hb := cut_none.1 hc
    -- the buffer is a prefix of the line
    have hlen : r.buf.length ≤ l.length := by
      rcases Nat.lt_or_ge l.length r.buf.length with hlt | hge
      · exfalso
        have h1 : (r.buf.map Ev.byte ++ r.net)[l.length]? = ((l ++ [10]).map Ev.byte ++ rest)[l.length]? := by rw [h]
        rw [List.getElem?_append_left (by simpa using hlt), List.getElem?_append_left (by simp), List.getElem?_map,
          List.getElem?_map] at h1
        simp only [List.getElem?_append_right (Nat.le_refl _), Nat.sub_self, List.getElem?_cons_zero, Option.map_some] at h1
        cases hx : r.buf[l.length]? with
        | none => rw [hx] at h1; cases h1
        | some x =>
          rw [hx] at h1
          injection h1 with h1
          injection h1 with h1
          subst h1
          exact hb (List.mem_of_getElem? hx)
      · exact hge
    have h1 := congrArg (List.take r.buf.length) h
    have h2 := congrArg (List.drop r.buf.length) h
    rw [List.take_append_of_le_length (by simp), List.take_append_of_le_length (by simp; omega)] at h1
    rw [List.drop_append_of_le_length (by simp), List.drop_append_of_le_length (by simp; omega)] at h2
    rw [← List.map_take, ← List.map_take, List.take_append_of_le_length hlen, List.take_length] at h1
    rw [← List.map_drop, ← List.map_drop, List.drop_append_of_le_length hlen, List.drop_length] at h2
    have h1 := byteMap_inj h1
    have h3 := lineLoop_ok r.net r.buf (l.drop r.buf.length) rest (by simpa using h2) (fun hm => hl (List.mem_of_mem_drop hm))
    refine ⟨⟨[], none, rest⟩, ?_, rfl, rfl⟩
    have h4 : r.buf ++ l.drop r.buf.length = l := by
      conv => lhs; rw [h1]
      rw [List.length_take, Nat.min_eq_left hlen]
      exact List.take_append_drop _ _
    rw [h3, h4]

theorem fullLoop_ok (acc s : Bytes) (rest : List Ev) : fullLoop acc s.length (s.map .byte ++ rest) = (.ok (acc ++ s), ⟨[], none, rest⟩) := by
  induction s generalizing acc with
  | nil => simp [fullLoop]
  | cons b s ih =>
    show fullLoop (acc ++ [b]) s.length (s.map .byte ++ rest) = _
    rw [ih]; simp

theorem readFull_ok {r : Rdr} {s : Bytes} {rest : List Ev} (he : r.err = none) (h : r.evs = s.map .byte ++ rest) :
    ∃ r', r.readFull s.length = (.ok s, r') ∧ r'.err = none ∧ r'.evs = rest := by
  unfold Rdr.readFull
  by_cases hb : s.length ≤ r.buf.length
  · rw [if_pos hb]
    obtain ⟨h1, h2⟩ := evs_take h (Nat.le_refl _) hb
    refine ⟨{ r with buf := r.buf.drop s.length }, by rw [h1, List.take_length], he, ?_⟩
    simpa using h2
  · rw [if_neg hb, he]
    dsimp only
    unfold Rdr.evs at h
    have h1 := congrArg (List.take r.buf.length) h
    have h2 := congrArg (List.drop r.buf.length) h
    rw [List.take_append_of_le_length (by simp), List.take_append_of_le_length (by simp; omega)] at h1
    rw [List.drop_append_of_le_length (by simp), List.drop_append_of_le_length (by simp; omega)] at h2
    rw [← List.map_take, ← List.map_take, List.take_length] at h1
    rw [← List.map_drop, ← List.map_drop, List.drop_length] at h2
    have h1 := byteMap_inj h1
    have h2 : r.net = (s.drop r.buf.length).map .byte ++ rest := by simpa using h2
    have h3 := fullLoop_ok r.buf (s.drop r.buf.length) rest
    rw [List.length_drop, ← h2] at h3
    refine ⟨⟨[], none, rest⟩, ?_, rfl, rfl⟩
    have h4 : r.buf ++ s.drop r.buf.length = s := by
      conv => lhs; rw [h1]
      rw [List.length_take, Nat.min_eq_left (by omega)]
      exact List.take_append_drop _ _
    rw [h3, h4]

theorem readUint16_ok {r : Rdr} {n : Nat} {rest : List Ev} (hn : n < 65536) (he : r.err = none)
    (h : r.evs = [UInt8.ofNat (n / 256), UInt8.ofNat (n % 256)].map .byte ++ rest) :
    ∃ r', r.readUint16 = (.ok n, r') ∧ r'.err = none ∧ r'.evs = rest := by
  obtain ⟨r', h1, h2, h3⟩ := readFull_ok he h
  refine ⟨r', ?_, h2, h3⟩
  unfold Rdr.readUint16
  rw [show (2 : Nat) = [UInt8.ofNat (n / 256), UInt8.ofNat (n % 256)].length from rfl, h1]
  simp only [List.foldl]
  have : (0 * 256 + (UInt8.ofNat (n / 256)).toNat) * 256 + (UInt8.ofNat (n % 256)).toNat = n := by
    rw [UInt8.toNat_ofNat', UInt8.toNat_ofNat']
    omega
  rw [this]

/-! ## Sizes: every line read makes the reader shorter -/

def Rdr.size (r : Rdr) : Nat := r.buf.length + r.net.length

theorem lineLoop_size (net : List Ev) : ∀ acc l r', lineLoop acc net = (.ok l, r') → r'.size < net.length := by
  induction net with
  | nil => intro acc l r' h; simp only [lineLoop] at h; injection h with h _; cases h
  | cons e t ih =>
    intro acc l r' h
    cases e with
    | byte b =>
      simp only [lineLoop] at h
      split at h
      · injection h with _ h; subst h; simp [Rdr.size]
      · have := ih _ _ _ h; simp; omega
    | timeout => simp only [lineLoop] at h; injection h with h _; cases h
    | reset => simp only [lineLoop] at h; injection h with h _; cases h

theorem readLine_size {r r' : Rdr} {l : Bytes} (h : r.readLine = (.ok l, r')) : r'.size < r.size := by
  unfold Rdr.readLine at h
  cases hc : cut 10 r.buf with
  | some ab =>
    obtain ⟨a, b⟩ := ab
    have := (cut_some hc).1
    rw [hc] at h
    injection h with _ h
    subst h
    unfold Rdr.size
    rw [this]
    simp
    omega
  | none =>
    rw [hc] at h
    dsimp only at h
    cases he : r.err with
    | some e => rw [he] at h; injection h with h _; cases h
    | none =>
      rw [he] at h
      have := lineLoop_size _ _ _ _ h
      have e : r.size = r.buf.length + r.net.length := rfl
      omega

/-- The fuel of `headerLoop` never runs out: more of it changes nothing. -/
theorem headerLoop_fuel (n : Nat) : ∀ (m : Nat) (r : Rdr) (h : Header), r.size < n → n ≤ m → headerLoop m r h = headerLoop n r h := by
  induction n with
  | zero => intro m r h hn; omega
  | succ n ih =>
    intro m r h hn hm
    cases m with
    | zero => omega
    | succ m =>
      simp only [headerLoop]
      cases hl : r.readLine with
      | mk x r' =>
        cases x with
        | error e => rfl
        | ok line =>
          dsimp only
          have hs := readLine_size hl
          split
          · rfl
          · cases hk : splitN2 58 (trimSpace line) with
            | nil => rfl
            | cons k t =>
              cases t with
              | nil => rfl
              | cons v t =>
                cases t with
                | nil => exact ih m r' _ (by omega) (by omega)
                | cons _ _ => rfl

end Ouro
