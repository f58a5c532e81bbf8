import Verif.Model.BitsApi
import Verif.Lemmas.Golomb
/-!
# C01–C08: the bit reader

Histories: `ReaderAfter buf ops r` says that `r` is the state of a reader created on `buf` after the calls `ops`.
Positions are observed through `Available()` only: `unread buf r` are the last `r.available` bits of the buffer.
-/
namespace Ouro
open Spec

/-- The unread bits of a reader over `buf`: the last `Available()` bits. -/
def unread (buf : Bytes) (r : BitReader) : List Bool := (bitsOf buf).drop (8 * buf.length - r.available)

/-- Number of bits consumed so far. -/
def consumed (buf : Bytes) (r : BitReader) : Nat := 8 * buf.length - r.available

/-- A call returned `a` without error and consumed exactly `n` bits. -/
def Delivers {α : Type} (buf : Bytes) (m : BR α) (r : BitReader) (a : α) (n : Nat) : Prop :=
  ∃ r', m r = .ok (.ok a, r') ∧ r'.available + n = r.available ∧ unread buf r' = (unread buf r).drop n

/-! ## Auxiliary -/

theorem BR.exec_inv {α : Type} {m : BR α} (hm : Safe m) {r r' : BitReader} (h : r.Inv) (he : m.exec r = .ok r') :
    r'.Inv ∧ r'.buffer = r.buffer ∧ r.pos ≤ r'.pos := by
  obtain ⟨x, r1, h1, h2, h3, h4⟩ := hm r h
  simp only [BR.exec, h1, Except.ok.injEq] at he
  subst he; exact ⟨h2, h3, h4⟩

theorem readBits_zero {r : BitReader} (h : r.Inv) :
    (r.buffer = [] ∧ readBits 0 r = .error .index) ∨ (r.buffer ≠ [] ∧ Yields (readBits 0) r 0 0) := by
  by_cases hb : r.buffer = []
  · refine .inl ⟨hb, ?_⟩
    unfold readBits
    rw [if_neg (by omega)]
    simp [idx, hb]
  · refine .inr ⟨hb, ?_⟩
    have := readBits_yields h (n := 0) (by omega) (by omega) hb
    rwa [if_pos (by omega), List.take_zero, show bitsVal [] = 0 from rfl] at this

theorem readByteBits_zero (r : BitReader) : readByteBits 0 r = (match readBits 0 r with
    | .error p => .error p
    | .ok (.error e, r') => .ok (.error e, r')
    | .ok (.ok v, r') => .ok (.ok (UInt8.ofNat v), r')) := by
  unfold readByteBits
  rw [BR.bind_apply]
  simp only [Nat.not_lt_zero, gt_iff_lt, if_false, BR.pure_apply]
  rcases readBits 0 r with p | ⟨e | v, r'⟩ <;> rfl

theorem BitOp.run_inv (op : BitOp) {r r' : BitReader} (h : r.Inv) (he : op.run r = .ok r') :
    r'.Inv ∧ r'.buffer = r.buffer ∧ r.pos ≤ r'.pos := by
  cases op with
  | readBits n =>
    cases n with
    | zero =>
      simp only [BitOp.run, BR.exec] at he
      rcases readBits_zero h with ⟨_, h1⟩ | ⟨_, r1, h1, h2, h3, h4⟩
      · rw [h1] at he; cases he
      · rw [h1] at he; cases he; exact ⟨h2, h3, by omega⟩
    | succ n => exact BR.exec_inv (readBits_safe (by omega)) h he
  | readByteBits n =>
    cases n with
    | zero =>
      simp only [BitOp.run, BR.exec] at he
      rcases readBits_zero h with ⟨_, h1⟩ | ⟨_, r1, h1, h2, h3, h4⟩
      · rw [readByteBits_zero, h1] at he; cases he
      · rw [readByteBits_zero, h1] at he; cases he; exact ⟨h2, h3, by omega⟩
    | succ n => exact BR.exec_inv (readByteBits_safe (by omega)) h he
  | readFlag => exact BR.exec_inv readFlag_safe h he
  | readUnsignedGolomb => exact BR.exec_inv readUE_safe h he
  | readSignedGolomb => exact BR.exec_inv readSE_safe h he
  | readScalingList n => exact BR.exec_inv (readScalingList_safe n) h he
  | skipBits n => exact BR.exec_inv (skipBits_safe n) h he
  | skipGolomb => exact BR.exec_inv skipGolomb_safe h he
  | skipTrailingBits => exact BR.exec_inv skipTrailingBits_safe h he
  | readPayloadParam => exact BR.exec_inv readPayloadParam_safe h he

theorem runOps_inv (ops : List BitOp) : ∀ {r r' : BitReader}, r.Inv → runOps ops r = .ok r' →
    r'.Inv ∧ r'.buffer = r.buffer ∧ r.pos ≤ r'.pos := by
  induction ops with
  | nil => intro r r' h he; cases he; exact ⟨h, rfl, Nat.le_refl _⟩
  | cons op ops ih =>
    intro r r' h he
    rcases hop : op.run r with p | r1
    · simp [runOps, hop] at he
    · simp only [runOps, hop] at he
      obtain ⟨h1, h2, h3⟩ := op.run_inv h hop
      obtain ⟨g1, g2, g3⟩ := ih h1 he
      exact ⟨g1, by rw [g2, h2], by omega⟩

theorem ReaderAfter.inv {buf : Bytes} {ops : List BitOp} {r : BitReader} (h : ReaderAfter buf ops r) :
    r.Inv ∧ r.buffer = buf := by
  obtain ⟨h1, h2, _⟩ := runOps_inv ops (newBitReader_inv buf) h
  exact ⟨h1, h2⟩

theorem consumed_eq {r : BitReader} (h : r.Inv) : consumed r.buffer r = r.pos := by
  have := h.pos_le
  rw [consumed, BitReader.available_eq h]; omega

theorem unread_eq {r : BitReader} (h : r.Inv) : unread r.buffer r = r.rest := by
  have := consumed_eq h
  unfold consumed at this
  rw [unread, this, BitReader.rest]

theorem Yields.delivers {α : Type} {m : BR α} {r : BitReader} {a : α} {n : Nat} (hr : r.Inv) (h : Yields m r a n) :
    Delivers r.buffer m r a n := by
  obtain ⟨r', h1, h2, h3, h4⟩ := h
  have e1 := unread_eq hr
  have e2 := unread_eq h2
  have a1 := BitReader.available_eq hr
  have a2 := BitReader.available_eq h2
  have := h2.pos_le
  rw [h3] at e2 a2 this
  refine ⟨r', h1, by omega, ?_⟩
  rw [e1, e2, BitReader.rest_of h3 h4]

/-! ## C01 -/

/-- C01, exact law: what a successful `ReadBits(n)` returns at any position. With `o` the offset of the first unread bit
within its byte, the result is the value of the next `n` bits if `o + n ≤ 32`, and that value with its top `8 - o` bits
cleared otherwise (the read spans five bytes and the 32-bit accumulator loses the first one). -/
theorem C01_readBits_exact (buf : Bytes) (ops : List BitOp) (r : BitReader) (n : Nat) (v : Nat) (r' : BitReader)
    (hist : ReaderAfter buf ops r) (hread : readBits n r = .ok (.ok v, r')) :
    v = if consumed buf r % 8 + n ≤ 32 then bitsVal ((unread buf r).take n)
        else bitsVal ((unread buf r).take n) % 2 ^ (n - (8 - consumed buf r % 8)) := by
  obtain ⟨h, rfl⟩ := hist.inv
  have hn : ¬(32 < n ∨ r.rest.length < n) := by
    intro hc; rw [readBits_err h hc] at hread; cases hread
  have hb : r.buffer ≠ [] := by
    intro hb
    rcases readBits_zero h with ⟨_, h1⟩ | ⟨h1, _⟩
    · have : n = 0 := by
        have : r.rest.length = 0 := by rw [BitReader.length_rest, hb]; simp
        omega
      subst this; rw [h1] at hread; cases hread
    · exact h1 hb
  obtain ⟨r1, h1, _⟩ := readBits_yields h (n := n) (by omega) (by omega) hb
  rw [hread] at h1
  rw [consumed_eq h, unread_eq h]
  cases h1; rfl

/-- C01 for reads that do not span five bytes (in particular for every read of at most 25 bits at any offset, and of any
`n ≤ 32` at a byte boundary). Missing: the five-byte reads, for which the property is false (`C01_readBits_refuted`). -/
theorem C01_readBits_partial (buf : Bytes) (ops : List BitOp) (r : BitReader) (n : Nat) (v : Nat) (r' : BitReader)
    (hist : ReaderAfter buf ops r) (hread : readBits n r = .ok (.ok v, r'))
    (hspan : consumed buf r % 8 + n ≤ 32) :
    v = bitsVal ((unread buf r).take n) := by
  rw [C01_readBits_exact buf ops r n v r' hist hread, if_pos hspan]

/-- The full C01 statement is false of the code: after reading one bit of `[80 40 00 00 00]` (binary `1 1000000 01...`),
a read of 32 bits drops the leading bit. -/
theorem C01_readBits_refuted : ¬ ∀ (buf : Bytes) (ops : List BitOp) (r : BitReader) (n v : Nat) (r' : BitReader),
    ReaderAfter buf ops r → readBits n r = .ok (.ok v, r') → v = bitsVal ((unread buf r).take n) := by
  intro H
  have := H [0xC0, 0, 0, 0, 0] [.readBits 1] ⟨[0xC0, 0, 0, 0, 0], 0, 1⟩ 32 0 ⟨[0xC0, 0, 0, 0, 0], 4, 1⟩
    (by simp [ReaderAfter, runOps, BitOp.run, BR.exec, readBits, readLoop, idx, newBitReader, BitReader.available])
    (by simp [readBits, readLoop, idx, BitReader.available, u32])
  revert this
  decide

/-- C01, C02 for `ReadByteBits(n)`: with eight bits available or `n` if that is less, it returns the value of the next `n` bits, of the next eight if
`n` is more than that, and consumes just these; otherwise it fails and changes nothing. No read of a byte spans five bytes, so there is no exception
as for `ReadBits`. -/
theorem C01_readByteBits (buf : Bytes) (ops : List BitOp) (r : BitReader) (n : Nat) (hist : ReaderAfter buf ops r) (hn : 0 < n) :
    (min n 8 ≤ r.available → Delivers buf (readByteBits n) r (UInt8.ofNat (bitsVal ((unread buf r).take (min n 8)))) (min n 8)) ∧
    (r.available < min n 8 → readByteBits n r = .ok (.error .unexpectedEOF, r)) := by
  obtain ⟨h, rfl⟩ := hist.inv
  have e : (if n > 8 then 8 else n) = min n 8 := by split <;> omega
  refine ⟨fun ha => ?_, fun ha => ?_⟩
  · rw [BitReader.available_eq_rest h] at ha
    have hl : (r.rest.take (min n 8)).length = min n 8 := by rw [List.length_take]; omega
    have hy := readByteBits_parses h (bs := r.rest.take (min n 8)) (rest := r.rest.drop (min n 8)) (List.take_append_drop _ _).symm (by omega) (by omega)
    rw [hl] at hy
    have hd := hy.delivers h
    rw [unread_eq h]
    have e8 : readByteBits (min n 8) = readByteBits n := by
      unfold readByteBits
      rw [e, if_neg (by omega)]
    rw [e8] at hd
    exact hd
  · rw [BitReader.available_eq_rest h] at ha
    unfold readByteBits
    rw [e]
    show BR.andThen (readBits (min n 8)) _ r = _
    unfold BR.andThen
    rw [readBits_err h (.inr ha)]

/-- C01, C02 for `ReadFlag`: it returns whether the next bit is 1 and consumes it; at the end it fails and changes nothing. -/
theorem C01_readFlag (buf : Bytes) (ops : List BitOp) (r : BitReader) (hist : ReaderAfter buf ops r) :
    (∀ b rest, unread buf r = b :: rest → Delivers buf readFlag r b 1) ∧ (unread buf r = [] → readFlag r = .ok (.error .unexpectedEOF, r)) := by
  obtain ⟨h, rfl⟩ := hist.inv
  rw [unread_eq h]
  refine ⟨fun b rest hr => (readFlag_parses h hr).delivers h, fun hr => ?_⟩
  unfold readFlag
  show BR.andThen (readBits 1) _ r = _
  unfold BR.andThen
  rw [readBits_err h (.inr (by rw [hr]; decide))]

/-- Both apply after three bits have been read. -/
example : ∃ r, ReaderAfter [0xC5, 0x3A] [.readBits 3] r ∧ unread [0xC5, 0x3A] r = [false, false, true, false, true, false, false, true, true, true, false, true, false] := by
  refine ⟨⟨[0xC5, 0x3A], 0, 3⟩, ?_, by decide⟩
  simp [ReaderAfter, runOps, BitOp.run, BR.exec, readBits, readLoop, idx, newBitReader, BitReader.available]

/-- The hypotheses of `C01_readBits_partial` are met in the middle of a byte. -/
example : ReaderAfter [0xC5, 0x3A] [.readBits 3] ⟨[0xC5, 0x3A], 0, 3⟩ ∧
    readBits 7 ⟨[0xC5, 0x3A], 0, 3⟩ = .ok (.ok 20, ⟨[0xC5, 0x3A], 1, 2⟩) ∧
    bitsVal ((unread [0xC5, 0x3A] ⟨[0xC5, 0x3A], 0, 3⟩).take 7) = 20 ∧
    consumed [0xC5, 0x3A] ⟨[0xC5, 0x3A], 0, 3⟩ % 8 + 7 ≤ 32 := by
  refine ⟨?_, ?_, by decide, by decide⟩
  · simp [ReaderAfter, runOps, BitOp.run, BR.exec, readBits, readLoop, idx, newBitReader, BitReader.available]
  · simp [readBits, readLoop, idx, BitReader.available, u32]

/-! ## C02 -/

/-- C02: a new reader has all bits of the buffer available. -/
theorem C02_available_initial (buf : Bytes) : (newBitReader buf).available = (bitsOf buf).length := by
  simp [newBitReader, BitReader.available]; omega

/-- C02: `Available()` never exceeds the buffer and never grows, whatever is called. -/
theorem C02_available_antitone (buf : Bytes) (ops more : List BitOp) (r r' : BitReader)
    (hist : ReaderAfter buf ops r) (hmore : runOps more r = .ok r') :
    r'.available ≤ r.available ∧ r.available ≤ 8 * buf.length := by
  obtain ⟨h, rfl⟩ := hist.inv
  obtain ⟨g1, g2, g3⟩ := runOps_inv more h hmore
  rw [BitReader.available_eq h, BitReader.available_eq g1, g2]
  omega

/-- C02: `ReadBits(n)` fails exactly when `n > 32` or `n > Available()`, then changing nothing; otherwise it consumes
exactly `n` bits and returns an `n`-bit number. The only panic is a read of zero bits from an empty buffer. -/
theorem C02_readBits (buf : Bytes) (ops : List BitOp) (r : BitReader) (n : Nat) (hist : ReaderAfter buf ops r) :
    (n > 32 ∨ n > r.available → readBits n r = .ok (.error .unexpectedEOF, r)) ∧
    (n ≤ 32 ∧ n ≤ r.available ∧ (0 < n ∨ buf ≠ []) → ∃ v, v < 2 ^ n ∧ Delivers buf (readBits n) r v n) ∧
    (n = 0 ∧ buf = [] → Panics (readBits n r)) := by
  obtain ⟨h, rfl⟩ := hist.inv
  rw [BitReader.available_eq_rest h]
  refine ⟨fun hc => readBits_err h hc, fun ⟨h1, h2, h3⟩ => ?_, fun ⟨h1, h2⟩ => ?_⟩
  · have hb : r.buffer ≠ [] := by
      rcases h3 with h3 | h3
      · intro hb
        have : r.rest.length = 0 := by rw [BitReader.length_rest, hb]; simp
        omega
      · exact h3
    have hy := readBits_yields h h1 h2 hb
    refine ⟨_, ?_, hy.delivers h⟩
    have hlt := bitsVal_lt (r.rest.take n)
    rw [List.length_take, Nat.min_eq_left h2] at hlt
    split
    · exact hlt
    · exact Nat.lt_of_le_of_lt (Nat.mod_le _ _) hlt
  · subst h1
    rcases readBits_zero h with ⟨_, g⟩ | ⟨g, _⟩
    · exact ⟨_, g⟩
    · exact absurd h2 g

/-- C02: the same for `SkipBits(n)`, which never panics. -/
theorem C02_skipBits (buf : Bytes) (ops : List BitOp) (r : BitReader) (n : Nat) (hist : ReaderAfter buf ops r) :
    (n > 32 ∨ n > r.available → skipBits n r = .ok (.error .unexpectedEOF, r)) ∧
    (n ≤ 32 ∧ n ≤ r.available → Delivers buf (skipBits n) r () n) := by
  obtain ⟨h, rfl⟩ := hist.inv
  refine ⟨fun hc => by unfold skipBits; rw [if_pos hc], fun ⟨h1, h2⟩ => ?_⟩
  by_cases hn : 0 < n
  · obtain ⟨v, _, r', g1, g2⟩ := (C02_readBits _ ops r n hist).2.1 ⟨h1, h2, .inl hn⟩
    refine ⟨r', ?_, g2⟩
    rw [skipBits_eq h (.inr hn), g1]
  · have hn : n = 0 := by omega
    subst hn
    have hb := h.bitn_le
    refine ⟨r, ?_, rfl, rfl⟩
    unfold skipBits
    rw [if_neg (by omega), skipLoop_eq 0 0 _ _ (by omega)]
    simp only [Nat.add_zero, Nat.mul_zero, Nat.sub_zero]
    rw [show 8 - (8 - r.bitn) = r.bitn by omega]

/-- C02: no history panics unless it reads zero bits from an empty buffer. -/
theorem C02_no_panic (buf : Bytes) (ops : List BitOp)
    (h0 : buf ≠ [] ∨ ∀ op ∈ ops, op ≠ .readBits 0 ∧ op ≠ .readByteBits 0) :
    ∃ r, ReaderAfter buf ops r := by
  have key : ∀ r : BitReader, r.Inv → r.buffer = buf → ∃ r', runOps ops r = .ok r' := by
    induction ops with
    | nil => intro r _ _; exact ⟨r, rfl⟩
    | cons op ops ih =>
      intro r h hb
      have hs : ∀ {α : Type} (m : BR α), Safe m → ∃ r1, m.exec r = .ok r1 := by
        intro α m hm
        obtain ⟨x, r1, h1, _⟩ := hm r h
        exact ⟨r1, by simp [BR.exec, h1]⟩
      have hz : ∀ n, (op = .readBits n ∨ op = .readByteBits n) → buf ≠ [] ∨ 0 < n := by
        intro n hn
        rcases h0 with h0 | h0
        · exact .inl h0
        · refine .inr (Nat.pos_of_ne_zero fun hn0 => ?_)
          subst hn0
          have := h0 op (by simp)
          rcases hn with hn | hn
          · exact this.1 hn
          · exact this.2 hn
      have hrun : ∃ r1, op.run r = .ok r1 := by
        cases op with
        | readBits n =>
          by_cases hn : 0 < n
          · exact hs _ (readBits_safe hn)
          · have hne := (hz n (.inl rfl)).resolve_right hn
            have hn : n = 0 := by omega
            subst hn
            rcases readBits_zero h with ⟨g, _⟩ | ⟨_, r1, g, _⟩
            · exact absurd (hb ▸ g) hne
            · exact ⟨r1, by simp [BitOp.run, BR.exec, g]⟩
        | readByteBits n =>
          by_cases hn : 0 < n
          · exact hs _ (readByteBits_safe hn)
          · have hne := (hz n (.inr rfl)).resolve_right hn
            have hn : n = 0 := by omega
            subst hn
            rcases readBits_zero h with ⟨g, _⟩ | ⟨_, r1, g, _⟩
            · exact absurd (hb ▸ g) hne
            · exact ⟨r1, by simp [BitOp.run, BR.exec, readByteBits_zero, g]⟩
        | readFlag => exact hs _ readFlag_safe
        | readUnsignedGolomb => exact hs _ readUE_safe
        | readSignedGolomb => exact hs _ readSE_safe
        | readScalingList n => exact hs _ (readScalingList_safe n)
        | skipBits n => exact hs _ (skipBits_safe n)
        | skipGolomb => exact hs _ skipGolomb_safe
        | skipTrailingBits => exact hs _ skipTrailingBits_safe
        | readPayloadParam => exact hs _ readPayloadParam_safe
      obtain ⟨r1, h1⟩ := hrun
      obtain ⟨g1, g2, _⟩ := op.run_inv h h1
      obtain ⟨r2, h2⟩ := ih (h0.imp_right fun h0 o ho => h0 o (by simp [ho])) r1 g1 (by rw [g2, hb])
      exact ⟨r2, by simp [runOps, h1, h2]⟩
  exact key _ (newBitReader_inv buf) rfl

/-- A history with successes and failures on a two-byte buffer, ending with three bits available. -/
example : ReaderAfter [0xC5, 0x3A] [.readBits 3, .readBits 14, .skipBits 10] ⟨[0xC5, 0x3A], 1, 5⟩ ∧
    (⟨[0xC5, 0x3A], 1, 5⟩ : BitReader).available = 3 := by
  refine ⟨?_, by decide⟩
  simp [ReaderAfter, runOps, BitOp.run, BR.exec, readBits, readLoop, skipBits, skipLoop, idx, newBitReader,
    BitReader.available]

/-! ## C03 -/

/-- C03, exact law for every 32-bit value at every offset: with `z` the number of leading zeros of the code and `o` the
offset within the byte of the first suffix bit, the result is `v` if `o + z ≤ 32`, and otherwise `v` with the top
`8 - o` suffix bits cleared. The code is always consumed completely. -/
theorem C03_unsignedGolomb_exact (buf : Bytes) (ops : List BitOp) (r : BitReader) (v : Nat) (rest : List Bool)
    (hist : ReaderAfter buf ops r) (hv : v < 2 ^ 32) (hcode : unread buf r = ueBits v ++ rest) :
    Delivers buf readUnsignedGolomb r
      (let z := (v + 1).log2
       let o := (consumed buf r + z + 1) % 8
       if o + z ≤ 32 then v else (v + 1 - 2 ^ z) % 2 ^ (z - (8 - o)) + 2 ^ z - 1)
      (ueBits v).length := by
  obtain ⟨h, rfl⟩ := hist.inv
  rw [unread_eq h] at hcode
  rw [consumed_eq h]
  exact (readUE_code h hcode hv).delivers h

/-- C03 for values below `2^26 - 1`, at every offset. Missing: larger values, for which it is false at some offsets
(`C03_unsignedGolomb_refuted`); see the exact law. -/
theorem C03_unsignedGolomb_partial (buf : Bytes) (ops : List BitOp) (r : BitReader) (v : Nat) (rest : List Bool)
    (hist : ReaderAfter buf ops r) (hv : v + 1 < 2 ^ 26) (hcode : unread buf r = ueBits v ++ rest) :
    Delivers buf readUnsignedGolomb r v (ueBits v).length := by
  obtain ⟨h, rfl⟩ := hist.inv
  rw [unread_eq h] at hcode
  exact (readUE_parses h hcode hv).delivers h

/-- C03 converse: if the unread bits do not begin with a complete code of at most 32 leading zeros, the call fails with
an end-of-stream error, so no value is ever invented. -/
theorem C03_unsignedGolomb_incomplete (buf : Bytes) (ops : List BitOp) (r : BitReader)
    (hist : ReaderAfter buf ops r)
    (hno : ¬ ∃ z s rest, z ≤ 32 ∧ s.length = z ∧ unread buf r = List.replicate z false ++ true :: (s ++ rest)) :
    ∃ r', readUnsignedGolomb r = .ok (.error .unexpectedEOF, r') := by
  obtain ⟨h, rfl⟩ := hist.inv
  rw [unread_eq h] at hno
  rcases zeros_cases r.rest with ⟨z, hz⟩ | ⟨z, t, hz⟩
  · obtain ⟨r', h1, _⟩ := readUE_fails_zeros h hz
    exact ⟨r', h1⟩
  · by_cases hc : t.length < z ∨ 32 < z
    · obtain ⟨r', h1, _⟩ := readUE_fails_short h hz hc
      exact ⟨r', h1⟩
    · exact absurd ⟨z, t.take z, t.drop z, by omega, by simp; omega, by rw [List.take_append_drop]; exact hz⟩ hno

/-- The full C03 statement is false of the code: the 53-bit code of `2^27 - 2` (26 zeros, then 27 ones) at offset 4. -/
theorem C03_unsignedGolomb_refuted : ¬ ∀ (buf : Bytes) (ops : List BitOp) (r : BitReader) (v : Nat)
    (rest : List Bool), ReaderAfter buf ops r → v < 2 ^ 32 → unread buf r = ueBits v ++ rest →
    Delivers buf readUnsignedGolomb r v (ueBits v).length := by
  intro H
  have hist : ReaderAfter [0, 0, 0, 3, 255, 255, 255, 128] [.skipBits 4] ⟨[0, 0, 0, 3, 255, 255, 255, 128], 0, 4⟩ := by
    simp [ReaderAfter, runOps, BitOp.run, BR.exec, skipBits, skipLoop, newBitReader, BitReader.available]
  have hc : unread [0, 0, 0, 3, 255, 255, 255, 128] ⟨[0, 0, 0, 3, 255, 255, 255, 128], 0, 4⟩ =
      ueBits (2 ^ 27 - 2) ++ List.replicate 7 false := by decide
  obtain ⟨r1, h1, _⟩ := H _ _ _ _ _ hist (by decide) hc
  obtain ⟨r2, h2, _⟩ := C03_unsignedGolomb_exact _ _ _ _ _ hist (by decide) hc
  rw [h1] at h2
  revert h2
  have e : ((2 ^ 27 - 2 : Nat) + 1).log2 = 26 := by decide
  simp [e, consumed, BitReader.available]

example : ReaderAfter [0b01001010] [.readBits 1] ⟨[0b01001010], 0, 1⟩ ∧
    unread [0b01001010] ⟨[0b01001010], 0, 1⟩ = ueBits 0 ++ (ueBits 4 ++ [false]) := by
  refine ⟨?_, by decide⟩
  simp [ReaderAfter, runOps, BitOp.run, BR.exec, readBits, readLoop, idx, newBitReader, BitReader.available]

/-! ## C04 -/

/-- C04 for values up to `2^24` in magnitude, at every offset. Missing: larger values (false at some offsets, as in C03);
`C04_signedGolomb_of_unsigned` reduces all 32-bit values to the unsigned reader. -/
theorem C04_signedGolomb_partial (buf : Bytes) (ops : List BitOp) (r : BitReader) (v : Int) (rest : List Bool)
    (hist : ReaderAfter buf ops r) (h1 : -(2 ^ 24) ≤ v) (h2 : v ≤ 2 ^ 24) (hcode : unread buf r = seBits v ++ rest) :
    Delivers buf readSignedGolomb r v (seBits v).length := by
  obtain ⟨h, rfl⟩ := hist.inv
  rw [unread_eq h] at hcode
  exact (readSE_parses h hcode h1 h2).delivers h

/-- C04: at a position where the suffix does not span five bytes, every signed value with a 32-bit code number is decoded
correctly. Here `z` is the number of leading zeros of the code. -/
theorem C04_signedGolomb_of_unsigned (buf : Bytes) (ops : List BitOp) (r : BitReader) (v : Int) (rest : List Bool)
    (hist : ReaderAfter buf ops r) (h1 : -2147483647 ≤ v) (h2 : v ≤ 2147483647)
    (hcode : unread buf r = seBits v ++ rest)
    (halign : (consumed buf r + (seCode v + 1).log2 + 1) % 8 + (seCode v + 1).log2 ≤ 32) :
    Delivers buf readSignedGolomb r v (seBits v).length := by
  obtain ⟨h, rfl⟩ := hist.inv
  rw [unread_eq h] at hcode
  rw [consumed_eq h] at halign
  have hu := readUE_code h hcode (by unfold seCode; split <;> omega)
  dsimp only at hu
  rw [if_pos halign] at hu
  exact (readSE_of_UE h1 h2 hu).delivers h

/-- C04, exact law for every signed value with a 32-bit code number at every offset. With `z` the number of leading zeros
of the code and `o` the offset within the byte of the first suffix bit, the result is `v` if `o + z ≤ 32`. Otherwise it is
the signed value whose code number is that of `v` with the top `8 - o` suffix bits cleared. The code is always consumed
completely. -/
theorem C04_signedGolomb_exact (buf : Bytes) (ops : List BitOp) (r : BitReader) (v v' : Int) (rest : List Bool)
    (hist : ReaderAfter buf ops r) (h1 : -2147483647 ≤ v) (h2 : v ≤ 2147483647)
    (hcode : unread buf r = seBits v ++ rest)
    (hv' : seCode v' =
      (let z := (seCode v + 1).log2
       let o := (consumed buf r + z + 1) % 8
       if o + z ≤ 32 then seCode v else (seCode v + 1 - 2 ^ z) % 2 ^ (z - (8 - o)) + 2 ^ z - 1)) :
    Delivers buf readSignedGolomb r v' (seBits v).length := by
  obtain ⟨h, rfl⟩ := hist.inv
  rw [unread_eq h] at hcode
  rw [consumed_eq h] at hv'
  have hu := readUE_code h hcode (by unfold seCode; split <;> omega)
  rw [← hv'] at hu
  have hle : seCode v' ≤ seCode v := by
    rw [hv']
    dsimp only
    split
    · exact Nat.le_refl _
    · have := Nat.mod_le (seCode v + 1 - 2 ^ (seCode v + 1).log2)
        (2 ^ ((seCode v + 1).log2 - (8 - (r.pos + (seCode v + 1).log2 + 1) % 8)))
      have := Nat.log2_self_le (n := seCode v + 1) (by omega)
      omega
  refine (readSE_of_UE ?_ ?_ hu).delivers h <;> (unfold seCode at hle; split at hle <;> split at hle <;> omega)

/-- A case in which bits are lost: `-(2^26 - 1)` at offset 4 is read as another value. -/
example : ∃ v', seCode v' = (let z := (seCode (-(2 ^ 26 - 1)) + 1).log2
       let o := (consumed [0, 0, 0, 3, 255, 255, 255, 128] ⟨[0, 0, 0, 3, 255, 255, 255, 128], 0, 4⟩ + z + 1) % 8
       if o + z ≤ 32 then seCode (-(2 ^ 26 - 1)) else (seCode (-(2 ^ 26 - 1)) + 1 - 2 ^ z) % 2 ^ (z - (8 - o)) + 2 ^ z - 1) ∧ v' ≠ -(2 ^ 26 - 1) := by
  refine ⟨-50331647, by decide +kernel, by decide⟩

/-- The full C04 statement is false of the code: `se(v)` of `-(2^26 - 1)` at offset 4. -/
theorem C04_signedGolomb_refuted : ¬ ∀ (buf : Bytes) (ops : List BitOp) (r : BitReader) (v : Int)
    (rest : List Bool), ReaderAfter buf ops r → -2147483647 ≤ v → v ≤ 2147483647 → unread buf r = seBits v ++ rest →
    Delivers buf readSignedGolomb r v (seBits v).length := by
  intro H
  have hist : ReaderAfter [0, 0, 0, 3, 255, 255, 255, 128] [.skipBits 4] ⟨[0, 0, 0, 3, 255, 255, 255, 128], 0, 4⟩ := by
    simp [ReaderAfter, runOps, BitOp.run, BR.exec, skipBits, skipLoop, newBitReader, BitReader.available]
  have hc : unread [0, 0, 0, 3, 255, 255, 255, 128] ⟨[0, 0, 0, 3, 255, 255, 255, 128], 0, 4⟩ =
      seBits (-(2 ^ 26 - 1)) ++ List.replicate 7 false := by decide
  obtain ⟨r1, h1, _⟩ := H _ _ _ _ _ hist (by decide) (by decide) hc
  obtain ⟨r2, h2, _⟩ := C03_unsignedGolomb_exact _ _ _ (2 ^ 27 - 2) _ hist (by decide) (by exact hc)
  have e : ((2 ^ 27 - 2 : Nat) + 1).log2 = 26 := by decide
  simp [e, consumed, BitReader.available] at h2
  rw [readSignedGolomb, BR.bind_apply, h2] at h1
  simp [BR.pure_apply, i32] at h1

example : ReaderAfter [0b01001010] [.readBits 2] ⟨[0b01001010], 0, 2⟩ ∧
    unread [0b01001010] ⟨[0b01001010], 0, 2⟩ = seBits (-2) ++ [false] := by
  refine ⟨?_, by decide⟩
  simp [ReaderAfter, runOps, BitOp.run, BR.exec, readBits, readLoop, idx, newBitReader, BitReader.available]

/-! ## C05 -/

/-- Forget the value of a call, keeping panic, error and the new reader state. -/
def dropValue {α : Type} (x : Go (Except H264Err α × BitReader)) : Go (Except H264Err Unit × BitReader) :=
  match x with
  | .error p => .error p
  | .ok (.error e, r) => .ok (.error e, r)
  | .ok (.ok _, r) => .ok (.ok (), r)

/-- C05: `SkipBits(n)` has the same error and leaves the reader in the same state as `ReadBits(n)`.
(A read of zero bits from an empty buffer panics, the skip does not.) -/
theorem C05_skipBits (buf : Bytes) (ops : List BitOp) (r : BitReader) (n : Nat) (hist : ReaderAfter buf ops r)
    (hn : buf ≠ [] ∨ 0 < n) : skipBits n r = dropValue (readBits n r) := by
  obtain ⟨h, rfl⟩ := hist.inv
  rw [skipBits_eq h hn]
  rcases readBits n r with p | ⟨e | v, r'⟩ <;> rfl

/-- C05: `SkipGolomb()` has the same error and leaves the reader in the same state as `ReadUnsignedGolomb()`. -/
theorem C05_skipGolomb (buf : Bytes) (ops : List BitOp) (r : BitReader) (hist : ReaderAfter buf ops r) :
    skipGolomb r = dropValue (readUnsignedGolomb r) := by
  obtain ⟨h, rfl⟩ := hist.inv
  rw [skipGolomb_eq h]
  rcases readUnsignedGolomb r with p | ⟨e | v, r'⟩ <;> rfl

/-- Without the side condition C05 fails on the empty buffer. -/
theorem C05_skipBits_empty_refuted : skipBits 0 (newBitReader []) ≠ dropValue (readBits 0 (newBitReader [])) := by
  simp [skipBits, skipLoop, readBits, newBitReader, BitReader.available, idx, dropValue]

example : ∃ r, ReaderAfter [0b01001010] [.readUnsignedGolomb, .skipGolomb] r :=
  C02_no_panic _ _ (.inl (by decide))

/-! ## C06 -/

/-- The rest of the current byte, `j` bits after the next one, is a stop bit followed by zeros. -/
def StopBitThenZeros (bits : List Bool) (j : Nat) : Prop := ∃ t, bits = true :: (List.replicate j false ++ t)

/-- C06, exact law: `SkipTrailingBits` succeeds exactly when the unread bits of the current byte are a one followed by
zeros, and then consumes exactly those bits; otherwise it reports the missing trailing bits. `j` is the number of bits
that follow the stop bit within its byte. -/
theorem C06_skipTrailingBits_exact (buf : Bytes) (ops : List BitOp) (r : BitReader) (j : Nat)
    (hist : ReaderAfter buf ops r) (hj : j < 8) (hp : (consumed buf r + 1 + j) % 8 = 0) :
    (StopBitThenZeros (unread buf r) j → Delivers buf skipTrailingBits r () (1 + j)) ∧
    (¬ StopBitThenZeros (unread buf r) j → ∃ r', skipTrailingBits r = .ok (.error .missingTrailingBits, r')) := by
  obtain ⟨h, rfl⟩ := hist.inv
  rw [consumed_eq h] at hp
  rw [unread_eq h]
  obtain ⟨g1, g2⟩ := skipTrailingBits_eq h j hj hp
  exact ⟨fun hs => (g1 hs).delivers h, fun hs => by
    obtain ⟨n, r', g, _⟩ := g2 hs
    exact ⟨r', g⟩⟩

/-- C06 when at most one byte (or the rest of it) is left: success exactly when the remaining bits are `1 0 … 0`, and
then everything has been consumed. Missing: more than one byte left, where it is false (`C06_skipTrailingBits_refuted`). -/
theorem C06_skipTrailingBits_partial (buf : Bytes) (ops : List BitOp) (r : BitReader)
    (hist : ReaderAfter buf ops r) (hlast : r.available ≤ 8) :
    ((∃ r', skipTrailingBits r = .ok (.ok (), r')) ↔ ∃ j, unread buf r = true :: List.replicate j false) ∧
    (∀ r', skipTrailingBits r = .ok (.ok (), r') → r'.available = 0) := by
  have hist' := hist
  obtain ⟨h, rfl⟩ := hist.inv
  have hav := BitReader.available_eq h
  have hpl := h.pos_le
  have hlen := BitReader.length_rest r
  by_cases h0 : r.available = 0
  · have hnil : r.rest = [] := List.length_eq_zero_iff.mp (by omega)
    obtain ⟨n, r', g, _⟩ := (skipTrailingBits_eq h 7 (by omega) (by omega)).2 (by rw [hnil]; simp)
    rw [g, unread_eq h, hnil]
    simp
  · obtain ⟨j, hj⟩ : ∃ j, r.available = 1 + j := ⟨r.available - 1, by omega⟩
    have hp : (consumed r.buffer r + 1 + j) % 8 = 0 := by rw [consumed_eq h]; omega
    obtain ⟨g1, g2⟩ := C06_skipTrailingBits_exact _ _ _ j hist' (by omega) hp
    have hl : (unread r.buffer r).length = 1 + j := by rw [unread_eq h]; omega
    have hiff : StopBitThenZeros (unread r.buffer r) j ↔ ∃ j, unread r.buffer r = true :: List.replicate j false := by
      constructor
      · rintro ⟨t, ht⟩
        have : t = [] := by
          apply List.length_eq_zero_iff.mp
          have := congrArg List.length ht
          simp at this; omega
        exact ⟨j, by rw [ht, this, List.append_nil]⟩
      · rintro ⟨i, hi⟩
        have : i = j := by
          have := congrArg List.length hi
          simp at this; omega
        subst this
        exact ⟨[], by rw [hi, List.append_nil]⟩
    rw [← hiff]
    by_cases hs : StopBitThenZeros (unread r.buffer r) j
    · obtain ⟨r', d1, d2, _⟩ := g1 hs
      rw [d1]
      refine ⟨⟨fun _ => hs, fun _ => ⟨r', rfl⟩⟩, ?_⟩
      intro r2 h2; cases h2; omega
    · obtain ⟨r', d1⟩ := g2 hs
      rw [d1]
      exact ⟨⟨fun ⟨_, h2⟩ => (by cases h2), fun h2 => absurd h2 hs⟩, fun _ h2 => (by cases h2)⟩

/-- The full C06 statement is false of the code: `[80 01]` is accepted with a whole byte still unread. -/
theorem C06_skipTrailingBits_refuted : ∃ (buf : Bytes) (r' : BitReader),
    skipTrailingBits (newBitReader buf) = .ok (.ok (), r') ∧ r'.available = 8 ∧
    ¬ ∃ j, unread buf (newBitReader buf) = true :: List.replicate j false := by
  obtain ⟨r', d1, d2, _⟩ := (C06_skipTrailingBits_exact [0x80, 0x01] [] (newBitReader [0x80, 0x01]) 7 rfl
    (by decide) (by decide)).1 ⟨byteBits 1, by decide⟩
  refine ⟨[0x80, 0x01], r', d1, ?_, ?_⟩
  · have : (newBitReader [0x80, 0x01]).available = 16 := by decide
    omega
  · rintro ⟨j, hj⟩
    have hl := congrArg List.length hj
    have e : (unread [0x80, 0x01] (newBitReader [0x80, 0x01])).length = 16 := by decide
    rw [e] at hl
    have : j = 15 := by simpa using hl.symm
    subst this
    revert hj; decide

example : ReaderAfter [0b01010100] [.readBits 5] ⟨[0b01010100], 0, 5⟩ ∧
    unread [0b01010100] ⟨[0b01010100], 0, 5⟩ = true :: List.replicate 2 false ∧
    (⟨[0b01010100], 0, 5⟩ : BitReader).available ≤ 8 := by
  refine ⟨?_, by decide, by decide⟩
  simp [ReaderAfter, runOps, BitOp.run, BR.exec, readBits, readLoop, idx, newBitReader, BitReader.available]

/-! ## C07 -/

/-- C07: a run of `k` bytes `FF` and a terminator `b ≠ FF` decode to `255 k + b` (mod `2^32`), consuming exactly those
bytes, at any bit offset and whatever follows. -/
theorem C07_payloadParam (buf : Bytes) (ops : List BitOp) (r : BitReader) (k : Nat) (b : UInt8) (rest : List Bool)
    (hist : ReaderAfter buf ops r) (hb : b ≠ 255)
    (hbits : unread buf r = bitsOf (List.replicate k 255 ++ [b]) ++ rest) :
    Delivers buf readPayloadParam r ((255 * k + b.toNat) % 2 ^ 32) (8 * (k + 1)) := by
  obtain ⟨h, rfl⟩ := hist.inv
  rw [unread_eq h] at hbits
  exact (readPayloadParam_yields h hb hbits).delivers h

/-- C07: without a terminating byte the call fails at end of stream. -/
theorem C07_payloadParam_unterminated (buf : Bytes) (ops : List BitOp) (r : BitReader) (k : Nat) (t : List Bool)
    (hist : ReaderAfter buf ops r) (hbits : unread buf r = bitsOf (List.replicate k 255) ++ t) (ht : t.length < 8) :
    ∃ r', readPayloadParam r = .ok (.error .unexpectedEOF, r') := by
  obtain ⟨h, rfl⟩ := hist.inv
  rw [unread_eq h] at hbits
  obtain ⟨r', h1, _⟩ := readPayloadParam_fails h hbits ht
  exact ⟨r', h1⟩

/-- Two bytes of 255 and three more bits. -/
example : ReaderAfter [0x1F, 0xFF, 0xFF, 0xFD] [.skipBits 3] ⟨[0x1F, 0xFF, 0xFF, 0xFD], 0, 3⟩ ∧
    ∃ t, unread [0x1F, 0xFF, 0xFF, 0xFD] ⟨[0x1F, 0xFF, 0xFF, 0xFD], 0, 3⟩ = bitsOf (List.replicate 3 255) ++ t ∧ t.length < 8 :=
  ⟨by simp [ReaderAfter, runOps, BitOp.run, BR.exec, skipBits, skipLoop, newBitReader, BitReader.available], [true, true, true, false, true], by decide, by decide⟩

/-- C07: the two cases above are all there is. -/
theorem C07_payloadParam_cases (bits : List Bool) :
    (∃ k t, bits = bitsOf (List.replicate k 255) ++ t ∧ t.length < 8) ∨
    (∃ k b t, b ≠ 255 ∧ bits = bitsOf (List.replicate k 255 ++ [b]) ++ t) := ff_cases _ bits (Nat.le_refl _)

example : ReaderAfter [0x1F, 0xF0, 0x7A] [.skipBits 4] ⟨[0x1F, 0xF0, 0x7A], 0, 4⟩ ∧
    unread [0x1F, 0xF0, 0x7A] ⟨[0x1F, 0xF0, 0x7A], 0, 4⟩ =
      bitsOf (List.replicate 1 255 ++ [7]) ++ [true, false, true, false] := by
  refine ⟨?_, by decide⟩
  simp [ReaderAfter, runOps, BitOp.run, BR.exec, skipBits, skipLoop, newBitReader, BitReader.available]

/-! ## C08 -/

/-- C08: a conforming `scaling_list()` of `es.length + m` entries: `es` coded by the deltas `ds`, and, if `m > 0`, a delta
`d0` that makes the scale zero, after which the last scale (8 if there is none) is repeated `m` times. The list returned
is exactly that, and use-default is reported exactly when the very first delta is the terminating one. -/
theorem C08_scalingList (buf : Bytes) (ops : List BitOp) (r : BitReader) (es ds : List Int) (m : Nat) (d0 : Int)
    (rest : List Bool) (hist : ReaderAfter buf ops r) (hds : ScalingDeltas 8 es ds)
    (hstop : m ≠ 0 → -128 ≤ d0 ∧ d0 ≤ 127 ∧ (es.getLastD 8 + d0) % 256 = 0)
    (hbits : unread buf r = ds.flatMap seBits ++ (if m = 0 then [] else seBits d0) ++ rest) :
    Delivers buf (readScalingList (es.length + m)) r
      (es ++ List.replicate m (es.getLastD 8), decide (es = [] ∧ m ≠ 0))
      (ds.flatMap seBits ++ (if m = 0 then [] else seBits d0)).length := by
  obtain ⟨h, rfl⟩ := hist.inv
  rw [unread_eq h] at hbits
  have := scalingLoop_yields es ds m d0 h rest [] true 8 8 false (by decide) (by decide) (by decide) hds hstop
    (fun _ => rfl) hbits
  have e : decide (es = [] ∧ m ≠ 0) = (true && es.isEmpty && (m != 0)) := by
    cases es <;> cases m <;> simp
  rw [e]
  simpa [readScalingList] using this.delivers h

/-- C08: whatever the stream holds, a list that is returned has the requested length and every entry is non-zero and
strictly between -256 and 256. -/
theorem C08_scalingList_range (r r' : BitReader) (n : Nat) (l : List Int) (ud : Bool)
    (h : readScalingList n r = .ok (.ok (l, ud), r')) :
    l.length = n ∧ ∀ x ∈ l, x ≠ 0 ∧ -256 < x ∧ x < 256 := by
  have := scalingLoop_range n [] true 8 8 false r r' l ud (by simp) (by decide) (by decide) h
  simpa using this

/-- C08: `ReadScalingList` never panics. -/
theorem C08_scalingList_no_panic (buf : Bytes) (ops : List BitOp) (r : BitReader) (n : Nat)
    (hist : ReaderAfter buf ops r) : ∃ x r', readScalingList n r = .ok (x, r') := by
  obtain ⟨h, _⟩ := hist.inv
  obtain ⟨x, r', h1, _⟩ := readScalingList_safe n r h
  exact ⟨x, r', h1⟩

/-- Entries 10, 9 then "repeat" for two more entries. -/
example : ScalingDeltas 8 [10, 9] [2, -1] ∧ (([10, 9] : List Int).getLastD 8 + -9) % 256 = 0 ∧
    ∃ r, ReaderAfter [0b00100011, 0b00001001, 0b10000000] [] r ∧
      unread [0b00100011, 0b00001001, 0b10000000] r =
        [2, -1].flatMap seBits ++ seBits (-9) ++ List.replicate 7 false := by
  refine ⟨by simp [ScalingDeltas], by decide, _, rfl, by decide⟩

/-- Use-default: first delta -8. -/
example : ScalingDeltas 8 [] [] ∧ (([] : List Int).getLastD 8 + -8) % 256 = 0 := ⟨trivial, by decide⟩

end Ouro
