import Verif.Model.Bits
import Verif.Lemmas.BitList
/-! # Lemmas about the bit reader model -/
namespace Ouro
open Spec

/-- Number of bits consumed so far. -/
def BitReader.pos (r : BitReader) : Nat := 8 * r.byten + r.bitn

/-- The unread bits. -/
def BitReader.rest (r : BitReader) : List Bool := (bitsOf r.buffer).drop r.pos

/-- Invariant of every reachable reader state. -/
structure BitReader.Inv (r : BitReader) : Prop where
  bitn_le : r.bitn ≤ 8
  pos_le : r.pos ≤ 8 * r.buffer.length
  byten_lt : r.byten < r.buffer.length ∨ (r.byten = 0 ∧ r.bitn = 0)

theorem newBitReader_inv (buf : Bytes) : (newBitReader buf).Inv :=
  ⟨by simp [newBitReader], by simp [newBitReader, BitReader.pos], by simp [newBitReader]⟩

theorem BitReader.available_eq {r : BitReader} (h : r.Inv) : r.available = 8 * r.buffer.length - r.pos := by
  have := h.bitn_le; have := h.pos_le
  simp only [BitReader.available, BitReader.pos] at *
  omega

theorem BitReader.length_rest (r : BitReader) : r.rest.length = 8 * r.buffer.length - r.pos := by
  simp [BitReader.rest]

theorem BitReader.available_eq_rest {r : BitReader} (h : r.Inv) : r.available = r.rest.length := by
  rw [BitReader.available_eq h, BitReader.length_rest]

/-- Iterations of the accumulation loop. -/
theorem readLoop_eq (buf : Bytes) (n k byten val bits : Nat) (hval : val < 2 ^ 32)
    (hk : k = (n - bits + 7) / 8) (hlen : byten + k < buf.length) :
    readLoop buf n byten val bits =
      .ok (byten + k, (val * 2 ^ (8 * k) + bitsVal (bitsOf ((buf.drop (byten + 1)).take k))) % 2 ^ 32,
        bits + 8 * k) := by
  induction k generalizing byten val bits with
  | zero =>
    rw [readLoop, if_neg (by omega)]
    simp [Nat.mod_eq_of_lt hval]
  | succ k ih =>
    rw [readLoop, if_pos (by omega)]
    have hb : byten + 1 < buf.length := by omega
    simp only [idx, List.getElem?_eq_getElem hb]
    have hor : u32 (val <<< 8) ||| (buf[byten + 1]).toNat = (val * 256 + buf[byten + 1].toNat) % 2 ^ 32 := by
      have hlt : (buf[byten + 1]).toNat < 2 ^ 8 := (buf[byten + 1]).toNat_lt
      have h1 : u32 (val <<< 8) = (val % 2 ^ 24) <<< 8 := by
        simp only [u32, Nat.shiftLeft_eq]; omega
      rw [h1, ← Nat.shiftLeft_add_eq_or_of_lt hlt, Nat.shiftLeft_eq]
      omega
    rw [hor, ih (byten + 1) _ (bits + 8) (Nat.mod_lt _ (by decide)) (by omega) (by omega)]
    have hd : (buf.drop (byten + 1)).take (k + 1) = buf[byten + 1] :: (buf.drop (byten + 2)).take k := by
      rw [List.drop_eq_getElem_cons hb, List.take_succ_cons]
    rw [hd, bitsOf_cons, bitsVal_append, bitsVal_byteBits]
    have hl : (bitsOf ((buf.drop (byten + 2)).take k)).length = 8 * k := by
      simp; omega
    rw [hl]
    congr 2
    · omega
    · congr 1
      · rw [Nat.add_mod, Nat.mod_mul_mod, ← Nat.add_mod]
        rw [Nat.add_mul, ← Nat.add_assoc, Nat.mul_assoc, show 8 * (k + 1) = 8 + 8 * k by omega, Nat.pow_add]
      · omega

/-- Exact result of `ReadBits`. -/
theorem readBits_ok {r : BitReader} (h : r.Inv) {n : Nat} (hn : n ≤ 32) (hav : n ≤ r.rest.length)
    (hne : r.buffer ≠ []) :
    ∃ r', readBits n r = .ok (.ok (if r.bitn = 8 ∨ r.bitn + n ≤ 32 then bitsVal (r.rest.take n)
        else bitsVal (r.rest.take n) % 2 ^ (n - (8 - r.bitn))), r')
      ∧ r'.Inv ∧ r'.buffer = r.buffer ∧ r'.pos = r.pos + n := by
  have h1 := h.bitn_le
  have h2 := h.pos_le
  have h3 := h.byten_lt
  have hlen : 0 < r.buffer.length := List.length_pos_iff.mpr hne
  have hav' := hav
  rw [BitReader.length_rest] at hav'
  unfold BitReader.pos at h2 hav'
  obtain ⟨k, hk⟩ : ∃ k, k = (n - (8 - r.bitn) + 7) / 8 := ⟨_, rfl⟩
  have hbl : r.byten < r.buffer.length := by omega
  have hkl : r.byten + k < r.buffer.length := by omega
  have hb : (r.buffer[r.byten]).toNat < 2 ^ 32 := by
    have : (r.buffer[r.byten]).toNat < 256 := (r.buffer[r.byten]).toNat_lt
    omega
  have hloop := readLoop_eq r.buffer n k r.byten _ (8 - r.bitn) hb hk hkl
  have hW : (r.buffer[r.byten]).toNat * 2 ^ (8 * k) + bitsVal (bitsOf ((r.buffer.drop (r.byten + 1)).take k))
      = bitsVal (bitsOf ((r.buffer.drop r.byten).take (k + 1))) := by
    rw [List.drop_eq_getElem_cons hbl, List.take_succ_cons, bitsOf_cons, bitsVal_append, bitsVal_byteBits]
    congr 3
    simp; omega
  rw [hW] at hloop
  refine ⟨{ r with byten := r.byten + k, bitn := 8 - (8 - r.bitn + 8 * k - n) }, ?_, ?_, rfl, ?_⟩
  · unfold readBits
    rw [if_neg (by rw [BitReader.available_eq_rest h]; omega)]
    simp only [idx, List.getElem?_eq_getElem hbl, hloop]
    congr 3
    have hmask : u32 (u32 (1 <<< n) + 4294967295) = 2 ^ n - 1 := by
      have : n = 32 ∨ n < 32 := by omega
      rcases this with rfl | hn'
      · decide
      · have : 2 ^ n < 2 ^ 32 := Nat.pow_lt_pow_right (by decide) hn'
        have hp : 0 < 2 ^ n := Nat.two_pow_pos n
        simp only [u32, Nat.shiftLeft_eq, Nat.one_mul]
        omega
    rw [hmask, Nat.and_two_pow_sub_one_eq_mod, Nat.shiftRight_eq_div_pow]
    have hL : (bitsOf ((r.buffer.drop r.byten).take (k + 1))).length = 8 * (k + 1) := by
      simp; omega
    have hmid := bitsVal_mid (bitsOf ((r.buffer.drop r.byten).take (k + 1))) r.bitn n (by rw [hL]; omega)
    rw [hL] at hmid
    have hrest : ((bitsOf ((r.buffer.drop r.byten).take (k + 1))).drop r.bitn).take n = r.rest.take n := by
      unfold BitReader.rest BitReader.pos
      rw [bitsOf_take, bitsOf_drop, ← List.drop_drop]
      rw [List.drop_take, List.take_take]
      have : min n (8 * (k + 1) - r.bitn) = n := by omega
      rw [this]
    rw [hrest] at hmid
    rw [hmid]
    generalize bitsVal (bitsOf ((r.buffer.drop r.byten).take (k + 1))) = W
    have e1 : 8 - r.bitn + 8 * k - n = 8 * (k + 1) - r.bitn - n := by omega
    rw [e1]
    generalize hs : 8 * (k + 1) - r.bitn - n = s
    have hdm : W % 2 ^ 32 / 2 ^ s = W / 2 ^ s % 2 ^ (32 - s) := by
      have e : (2 : Nat) ^ 32 = 2 ^ s * 2 ^ (32 - s) := by
        rw [← Nat.pow_add, Nat.add_sub_cancel' (by omega : s ≤ 32)]
      rw [e, Nat.mod_mul_right_div_self]
    rw [hdm]
    split
    next hc =>
      rw [Nat.mod_mod_of_dvd]
      exact Nat.pow_dvd_pow 2 (by omega)
    next hc =>
      have e2 : 32 - s = n - (8 - r.bitn) := by omega
      rw [e2]
      have hle : n - (8 - r.bitn) ≤ n := Nat.sub_le _ _
      have hd := Nat.mod_mod_of_dvd (W / 2 ^ s) (Nat.pow_dvd_pow 2 hle)
      refine Eq.trans (Nat.mod_eq_of_lt ?_) hd.symm
      exact Nat.lt_of_lt_of_le (Nat.mod_lt _ (Nat.two_pow_pos _)) (Nat.pow_le_pow_right (by decide) hle)
  · constructor
    · simp
    · simp only [BitReader.pos]; omega
    · left; exact hkl
  · simp only [BitReader.pos]; omega

theorem BitReader.rest_of {r r' : BitReader} {n : Nat} (hb : r'.buffer = r.buffer) (hp : r'.pos = r.pos + n) :
    r'.rest = r.rest.drop n := by
  unfold BitReader.rest; rw [hb, hp, List.drop_drop]

theorem readBits_err {r : BitReader} (h : r.Inv) {n : Nat} (hn : 32 < n ∨ r.rest.length < n) :
    readBits n r = .ok (.error .unexpectedEOF, r) := by
  unfold readBits; rw [if_pos (by rw [BitReader.available_eq_rest h]; omega)]

end Ouro
