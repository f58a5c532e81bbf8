import Verif.Props.Alloc
/-! # C98: how much memory the parser of picture parameter sets can be made to ask for -/
namespace Ouro
open Spec

/-- A number that was read takes `2 z + 1` bits and is below `2 ^ (z + 1) - 1`. -/
theorem readUE_room {r r' : BitReader} {v : Nat} (hi : r.Inv) (h : readUnsignedGolomb r = .ok (.ok v, r')) :
    r'.Inv ∧ r'.buffer = r.buffer ∧ ∃ z, r'.pos = r.pos + 2 * z + 1 ∧ v + 2 ≤ 2 ^ (z + 1) := by
  rcases zeros_cases r.rest with ⟨z, hz⟩ | ⟨z, t, hz⟩
  · obtain ⟨r1, g, _⟩ := readUE_fails_zeros hi hz
    rw [h] at g; cases g
  · by_cases hc : t.length < z ∨ 32 < z
    · obtain ⟨r1, g, _⟩ := readUE_fails_short hi hz hc
      rw [h] at g; cases g
    · have hlen : (t.take z).length = z := by simp; omega
      obtain ⟨r1, g1, g2, g3, g4⟩ := readUE_yields hi (z := z) (s := t.take z) (rest := t.drop z) (by rw [List.take_append_drop]; exact hz) hlen (by omega)
      rw [h] at g1
      injection g1 with g1; injection g1 with g1 g5; injection g1 with g1
      subst g5
      refine ⟨g2, g3, z, by omega, ?_⟩
      have hx : (if (r.pos + z + 1) % 8 + z ≤ 32 then bitsVal (t.take z) else bitsVal (t.take z) % 2 ^ (z - (8 - (r.pos + z + 1) % 8))) < 2 ^ z := by
        have hb := bitsVal_lt (t.take z)
        rw [hlen] at hb
        split
        · exact hb
        · exact Nat.lt_of_le_of_lt (Nat.mod_le _ _) hb
      generalize (if (r.pos + z + 1) % 8 + z ≤ 32 then bitsVal (t.take z) else bitsVal (t.take z) % 2 ^ (z - (8 - (r.pos + z + 1) % 8))) = X at hx g1
      rw [Nat.pow_succ]
      by_cases h32 : z = 32
      · subst h32
        omega
      · have : 2 ^ z ≤ 2 ^ 31 := Nat.pow_le_pow_right (by decide) (by omega)
        have : 0 < 2 ^ z := Nat.two_pow_pos z
        omega

theorem readFlag_room {r r' : BitReader} {v : Bool} (hi : r.Inv) (h : readFlag r = .ok (.ok v, r')) :
    r'.Inv ∧ r'.buffer = r.buffer ∧ r'.pos = r.pos + 1 := by
  unfold readFlag at h
  rw [bind_ok] at h
  obtain ⟨x, r1, h1, h⟩ := h
  rw [BR.pure_apply] at h
  injection h with h; injection h with _ h
  subst h
  by_cases hc : 32 < 1 ∨ r.rest.length < 1
  · rw [readBits_err hi hc] at h1; cases h1
  · have hb : r.buffer ≠ [] := by
      intro hb
      have : r.rest.length = 0 := by rw [BitReader.length_rest, hb]; simp
      omega
    obtain ⟨r3, g1, g2, g3, g4⟩ := readBits_yields hi (n := 1) (by omega) (by omega) hb
    rw [g1] at h1
    injection h1 with h1; injection h1 with _ h1
    subst h1
    exact ⟨g2, g3, g4⟩

/-- **C98**, what holds for every data, accepted or not: less than four gigabytes are asked for, and less than `2 ^ (4 n - 6)` bytes for `n` bytes of data. The map comes
after at least 12 bits, and `z` more bits of its size take `2 z` bits of the data. -/
theorem C98_bound_partial (buf : Bytes) : ppsMakes buf < 2 ^ 32 ∧ ppsMakes buf < 2 ^ (4 * buf.length - 6) := by
  unfold ppsMakes
  split
  · next k r' h =>
    unfold ppsMakeBits at h
    rw [bind_ok] at h
    obtain ⟨a1, r1, g1, h⟩ := h
    rw [bind_ok] at h
    obtain ⟨a2, r2, g2, h⟩ := h
    rw [bind_ok] at h
    obtain ⟨a3, r3, g3, h⟩ := h
    rw [bind_ok] at h
    obtain ⟨a4, r4, g4, h⟩ := h
    rw [bind_ok] at h
    obtain ⟨n, r5, g5, h⟩ := h
    have zero : ∀ {k : Nat} {s s' : BitReader}, (pure 0 : BR Nat) s = .ok (.ok k, s') → k < 2 ^ 32 ∧ k < 2 ^ (4 * buf.length - 6) := by
      intro k s s' h
      rw [BR.pure_apply] at h
      injection h with h; injection h with h _; injection h with h
      subst h
      exact ⟨by decide, Nat.two_pow_pos _⟩
    by_cases hn : n > 0
    · rw [if_pos hn, bind_ok] at h
      obtain ⟨t, r6, g6, h⟩ := h
      by_cases t6 : t = 6
      · rw [if_pos t6, bind_ok] at h
        obtain ⟨size, r7, g7, h⟩ := h
        rw [BR.pure_apply] at h
        injection h with h; injection h with h _; injection h with h
        subst h
        refine ⟨u32_lt' _, ?_⟩
        obtain ⟨i1, b1, z1, p1, _⟩ := readUE_room (newBitReader_inv buf) g1
        obtain ⟨i2, b2, z2, p2, _⟩ := readUE_room i1 g2
        obtain ⟨i3, b3, p3⟩ := readFlag_room i2 g3
        obtain ⟨i4, b4, p4⟩ := readFlag_room i3 g4
        obtain ⟨i5, b5, z5, p5, v5⟩ := readUE_room i4 g5
        obtain ⟨i6, b6, z6, p6, v6⟩ := readUE_room i5 g6
        obtain ⟨i7, b7, z7, p7, v7⟩ := readUE_room i6 g7
        have hz5 : 1 ≤ z5 := by
          rcases z5 with _ | z5
          · rw [Nat.zero_add, Nat.pow_one] at v5; omega
          · omega
        have hz6 : 2 ≤ z6 := by
          rcases z6 with _ | _ | z6
          · rw [Nat.zero_add, Nat.pow_one] at v6; omega
          · have : 2 ^ (0 + 1 + 1) = 4 := rfl
            omega
          · omega
        have hp := i7.pos_le
        rw [b7, b6, b5, b4, b3, b2, b1] at hp
        have h0 : (newBitReader buf).pos = 0 := rfl
        have hb : (newBitReader buf).buffer = buf := rfl
        rw [hb] at hp
        have hle : 2 ^ (z7 + 1) ≤ 2 ^ (4 * buf.length - 6) := Nat.pow_le_pow_right (by decide) (by omega)
        have : u32 (size + 1) ≤ size + 1 := Nat.mod_le _ _
        omega
      · rw [if_neg t6] at h
        exact zero h
    · rw [if_neg hn] at h
      exact zero h
  · exact ⟨by decide, Nat.two_pow_pos _⟩

/-- The bound is met: two to eight bytes can ask for one byte less than it allows. -/
theorem C98_bound_attained (n : Nat) (h2 : 2 ≤ n) (h8 : n ≤ 8) : ∃ buf : Bytes, buf.length = n ∧ ppsMakes buf = 2 ^ (4 * n - 6) - 1 := by
  have hpos : 0 < 2 ^ (4 * n - 7) := Nat.two_pow_pos _
  have hsplit : 2 ^ (4 * n - 6) = 2 * 2 ^ (4 * n - 7) := by rw [show 4 * n - 6 = (4 * n - 7) + 1 from by omega, Nat.pow_succ, Nat.mul_comm]
  have hbig : 2 ^ (4 * n - 6) ≤ 2 ^ 26 := Nat.pow_le_pow_right (by decide) (by omega)
  have hlog : (2 ^ (4 * n - 6) - 2 + 1).log2 ≤ 4 * n - 7 := by
    have := (Nat.log2_lt (n := 2 ^ (4 * n - 6) - 2 + 1) (k := 4 * n - 6) (by omega)).2 (by omega)
    omega
  obtain ⟨buf, h1, h3, _⟩ := makes_of_len n (2 ^ (4 * n - 6) - 2) (2 ^ (4 * n - 6) - 2) (by rw [ueBits_length]; omega)
    (fun r rest hi _ hr => readUE_parses hi hr (by omega))
  refine ⟨buf, h1, ?_⟩
  rw [h3]
  unfold u32
  omega

end Ouro
