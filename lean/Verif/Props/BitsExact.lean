import Verif.Props.Bits
/-! # C01, C03, C04: exactly when the value read is right -/
namespace Ouro
open Spec

theorem bitsVal_top (l : List Bool) (k : Nat) (hk : k ≤ l.length) : bitsVal l % 2 ^ (l.length - k) = bitsVal l ↔ ∀ b ∈ l.take k, b = false := by
  have hz : ∀ t : List Bool, (bitsVal t = 0 ↔ ∀ b ∈ t, b = false) := by
    intro t
    induction t with
    | nil => simp
    | cons x t ih =>
      rw [bitsVal_cons]
      have hp : 0 < 2 ^ t.length := Nat.two_pow_pos _
      cases x with
      | false => simp [ih]
      | true =>
        simp only [Bool.toNat_true, Nat.one_mul, List.mem_cons, forall_eq_or_imp, Bool.true_eq_false, false_and, iff_false]
        omega
  have e : bitsVal l = bitsVal (l.take k) * 2 ^ (l.length - k) + bitsVal (l.drop k) := by
    conv => lhs; rw [← List.take_append_drop k l, bitsVal_append]
    rw [List.length_drop]
  have hlt := bitsVal_lt (l.drop k)
  rw [List.length_drop] at hlt
  rw [← hz]
  generalize hP : 2 ^ (l.length - k) = P at *
  rw [e]
  have : (bitsVal (l.take k) * P + bitsVal (l.drop k)) % P = bitsVal (l.drop k) := by
    rw [Nat.mul_comm, Nat.mul_add_mod, Nat.mod_eq_of_lt hlt]
  rw [this]
  constructor
  · intro h
    have : bitsVal (l.take k) * P = 0 := by omega
    rcases Nat.mul_eq_zero.1 this with h | h
    · exact h
    · omega
  · intro h; rw [h]; omega

/-- C01, exactly when it holds: a successful `ReadBits(n)` returns the value of the next `n` bits if and only if the read stays within four bytes, or
the bits it reads from the first of five are all 0. -/
theorem C01_readBits_iff (buf : Bytes) (ops : List BitOp) (r : BitReader) (n : Nat) (v : Nat) (r' : BitReader)
    (hist : ReaderAfter buf ops r) (hread : readBits n r = .ok (.ok v, r')) :
    v = bitsVal ((unread buf r).take n) ↔ consumed buf r % 8 + n ≤ 32 ∨ ∀ b ∈ (unread buf r).take (8 - consumed buf r % 8), b = false := by
  have hex := C01_readBits_exact buf ops r n v r' hist hread
  have hn : n ≤ (unread buf r).length := by
    have := (C02_readBits buf ops r n hist).1
    obtain ⟨h, rfl⟩ := hist.inv
    rw [unread_eq h, ← BitReader.available_eq_rest h]
    rcases Nat.lt_or_ge r.available n with hlt | hge
    · rw [this (.inr hlt)] at hread; cases hread
    · exact hge
  by_cases h : consumed buf r % 8 + n ≤ 32
  · rw [if_pos h] at hex
    exact ⟨fun _ => .inl h, fun _ => hex⟩
  · rw [if_neg h] at hex
    have hl : ((unread buf r).take n).length = n := by rw [List.length_take]; omega
    have hk := bitsVal_top ((unread buf r).take n) (8 - consumed buf r % 8) (by omega)
    rw [hl, List.take_take, show min (8 - consumed buf r % 8) n = 8 - consumed buf r % 8 by omega] at hk
    rw [hex, hk]
    exact ⟨.inr, fun h' => h'.resolve_left h⟩

/-- The first `8 - o` bits after the `z` zeros and the 1 of a code. -/
theorem ue_top (v : Nat) (k : Nat) (hk : k ≤ (v + 1).log2) :
    ((v + 1 - 2 ^ (v + 1).log2) % 2 ^ ((v + 1).log2 - k) + 2 ^ (v + 1).log2 - 1 = v) ↔ ∀ b ∈ ((ueBits v).drop ((v + 1).log2 + 1)).take k, b = false := by
  have h1 : 2 ^ (v + 1).log2 ≤ v + 1 := Nat.log2_self_le (by omega)
  have hd : (ueBits v).drop ((v + 1).log2 + 1) = uBits (v + 1).log2 (v + 1) := by
    rw [ueBits_eq, ← List.drop_drop]
    rw [List.drop_left' (by simp)]
    rfl
  rw [hd]
  have hlen : (uBits (v + 1).log2 (v + 1)).length = (v + 1).log2 := by simp
  have := bitsVal_top (uBits (v + 1).log2 (v + 1)) k (by rw [hlen]; exact hk)
  rw [hlen, bitsVal_uBits, suffix_val] at this
  rw [← this]
  have := Nat.mod_le (v + 1 - 2 ^ (v + 1).log2) (2 ^ ((v + 1).log2 - k))
  have hp : 0 < 2 ^ (v + 1).log2 := Nat.two_pow_pos _
  omega

/-- C03, exactly when it holds: a code is decoded to its value if and only if what follows its first 1 stays within four bytes, or the bits of it in the
first of five bytes are all 0. -/
theorem C03_unsignedGolomb_iff (buf : Bytes) (ops : List BitOp) (r : BitReader) (v : Nat) (rest : List Bool)
    (hist : ReaderAfter buf ops r) (hv : v < 2 ^ 32) (hcode : unread buf r = ueBits v ++ rest) :
    Delivers buf readUnsignedGolomb r v (ueBits v).length ↔
      (consumed buf r + (v + 1).log2 + 1) % 8 + (v + 1).log2 ≤ 32 ∨
      ∀ b ∈ ((ueBits v).drop ((v + 1).log2 + 1)).take (8 - (consumed buf r + (v + 1).log2 + 1) % 8), b = false := by
  obtain ⟨r1, h1, h2, h3⟩ := C03_unsignedGolomb_exact buf ops r v rest hist hv hcode
  have key : Delivers buf readUnsignedGolomb r v (ueBits v).length ↔ (let z := (v + 1).log2
       let o := (consumed buf r + z + 1) % 8
       if o + z ≤ 32 then v else (v + 1 - 2 ^ z) % 2 ^ (z - (8 - o)) + 2 ^ z - 1) = v := by
    constructor
    · rintro ⟨r2, g1, _⟩
      rw [h1] at g1
      injection g1 with g1; injection g1 with g1; injection g1
    · intro h
      rw [h] at h1
      exact ⟨r1, h1, h2, h3⟩
  rw [key]
  dsimp only
  split
  · rename_i h
    exact ⟨fun _ => .inl h, fun _ => rfl⟩
  · rename_i h
    rw [ue_top v _ (by omega)]
    exact ⟨.inr, fun h' => h'.resolve_left h⟩

/-- C04, exactly when it holds: the same condition on the code number. -/
theorem C04_signedGolomb_iff (buf : Bytes) (ops : List BitOp) (r : BitReader) (v : Int) (rest : List Bool)
    (hist : ReaderAfter buf ops r) (h1 : -2147483647 ≤ v) (h2 : v ≤ 2147483647) (hcode : unread buf r = seBits v ++ rest) :
    Delivers buf readSignedGolomb r v (seBits v).length ↔
      (consumed buf r + (seCode v + 1).log2 + 1) % 8 + (seCode v + 1).log2 ≤ 32 ∨
      ∀ b ∈ ((seBits v).drop ((seCode v + 1).log2 + 1)).take (8 - (consumed buf r + (seCode v + 1).log2 + 1) % 8), b = false := by
  have hval : ∀ n : Nat, ∃ v' : Int, seCode v' = n := by
    intro n
    rcases Nat.mod_two_eq_zero_or_one n with h | h
    · exact ⟨-((n / 2 : Nat) : Int), by unfold seCode; split <;> omega⟩
    · exact ⟨((n / 2 + 1 : Nat) : Int), by unfold seCode; split <;> omega⟩
  obtain ⟨v', hv'⟩ := hval (let z := (seCode v + 1).log2
       let o := (consumed buf r + z + 1) % 8
       if o + z ≤ 32 then seCode v else (seCode v + 1 - 2 ^ z) % 2 ^ (z - (8 - o)) + 2 ^ z - 1)
  obtain ⟨r1, g1, g2, g3⟩ := C04_signedGolomb_exact buf ops r v v' rest hist h1 h2 hcode hv'
  have key : Delivers buf readSignedGolomb r v (seBits v).length ↔ seCode v' = seCode v := by
    constructor
    · rintro ⟨r2, k1, _⟩
      rw [g1] at k1
      injection k1 with k1; injection k1 with k1; injection k1 with k1
      rw [k1]
    · intro h
      have : v' = v := by
        unfold seCode at h; split at h <;> split at h <;> omega
      rw [this] at g1
      exact ⟨r1, g1, g2, g3⟩
  rw [key, hv']
  dsimp only
  split
  · rename_i h
    exact ⟨fun _ => .inl h, fun _ => rfl⟩
  · rename_i h
    rw [ue_top (seCode v) _ (by omega)]
    exact ⟨.inr, fun h' => h'.resolve_left h⟩

/-- Both kinds of code: at offset 4, `2^27 - 2` (26 ones after the first) is not decoded, and `2^26 - 1` (26 zeros) is. -/
example : (∀ b ∈ ((ueBits (2 ^ 26 - 1)).drop 27).take 1, b = false) ∧ ¬ ∀ b ∈ ((ueBits (2 ^ 27 - 2)).drop 27).take 1, b = false := by
  decide

end Ouro
