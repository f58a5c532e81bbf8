import Verif.Spec.Bits
/-! # Lemmas about the bit-string specification -/
namespace Ouro.Spec

theorem foldl_bits (l : List Bool) (a : Nat) :
    l.foldl (fun a b => 2 * a + b.toNat) a = a * 2 ^ l.length + bitsVal l := by
  induction l generalizing a with
  | nil => simp [bitsVal]
  | cons b l ih =>
    simp only [List.foldl_cons, bitsVal, List.length_cons]
    rw [ih, ih (2 * 0 + b.toNat)]
    have : 2 ^ (l.length + 1) = 2 * 2 ^ l.length := by rw [Nat.pow_succ]; omega
    rw [this, Nat.add_mul]
    simp only [Nat.mul_zero, Nat.zero_add]
    rw [show 2 * a * 2 ^ l.length = a * (2 * 2 ^ l.length) by
      rw [Nat.mul_comm 2 a, Nat.mul_assoc]]
    omega

@[simp] theorem bitsVal_nil : bitsVal [] = 0 := rfl

theorem bitsVal_cons (b : Bool) (l : List Bool) : bitsVal (b :: l) = b.toNat * 2 ^ l.length + bitsVal l := by
  conv => lhs; unfold bitsVal
  simp only [List.foldl_cons]
  rw [foldl_bits]; simp

theorem bitsVal_append (a b : List Bool) : bitsVal (a ++ b) = bitsVal a * 2 ^ b.length + bitsVal b := by
  conv => lhs; unfold bitsVal
  rw [List.foldl_append, foldl_bits]; rfl

theorem bitsVal_lt (l : List Bool) : bitsVal l < 2 ^ l.length := by
  induction l with
  | nil => simp
  | cons b l ih =>
    rw [bitsVal_cons, List.length_cons, Nat.pow_succ]
    have : b.toNat ≤ 1 := Bool.toNat_le b
    have : b.toNat * 2 ^ l.length ≤ 1 * 2 ^ l.length := Nat.mul_le_mul_right _ this
    omega

@[simp] theorem length_byteBits (b : UInt8) : (byteBits b).length = 8 := rfl

@[simp] theorem bitsOf_nil : bitsOf [] = [] := rfl
@[simp] theorem bitsOf_cons (b : UInt8) (l : List UInt8) : bitsOf (b :: l) = byteBits b ++ bitsOf l := rfl
@[simp] theorem bitsOf_append (a b : List UInt8) : bitsOf (a ++ b) = bitsOf a ++ bitsOf b := by
  simp [bitsOf]

@[simp] theorem length_bitsOf (l : List UInt8) : (bitsOf l).length = 8 * l.length := by
  induction l with
  | nil => rfl
  | cons b l ih => simp [ih]; omega

theorem bitsOf_drop (l : List UInt8) (k : Nat) : bitsOf (l.drop k) = (bitsOf l).drop (8 * k) := by
  induction k generalizing l with
  | zero => simp
  | succ k ih =>
    cases l with
    | nil => simp
    | cons b l =>
      rw [List.drop_succ_cons, ih, bitsOf_cons, List.drop_append]
      simp only [length_byteBits]
      rw [List.drop_eq_nil_of_le (as := byteBits b) (by simp; omega)]
      rw [show 8 * (k + 1) - 8 = 8 * k by omega]; rfl

theorem bitsOf_take (l : List UInt8) (k : Nat) : bitsOf (l.take k) = (bitsOf l).take (8 * k) := by
  induction k generalizing l with
  | zero => simp
  | succ k ih =>
    cases l with
    | nil => simp
    | cons b l =>
      rw [List.take_succ_cons, bitsOf_cons, ih, bitsOf_cons, List.take_append]
      simp only [length_byteBits]
      rw [List.take_of_length_le (l := byteBits b) (by simp; omega)]
      rw [show 8 * (k + 1) - 8 = 8 * k by omega]

theorem bitsVal_byteBits (b : UInt8) : bitsVal (byteBits b) = b.toNat := by
  have h : b.toNat < 256 := b.toNat_lt
  simp only [byteBits, bitsVal_cons, bitsVal_nil, Nat.testBit_eq_decide_div_mod_eq, List.length_cons, List.length_nil]
  generalize b.toNat = n at h
  have hb : ∀ k, (decide (n / 2 ^ k % 2 = 1)).toNat = n / 2 ^ k % 2 := by
    intro k
    rcases Nat.mod_two_eq_zero_or_one (n / 2 ^ k) with h | h <;> simp [h]
  simp only [hb]
  omega

/-- Value of a middle part of a bit string. -/
theorem bitsVal_mid (l : List Bool) (a n : Nat) (h : a + n ≤ l.length) :
    bitsVal ((l.drop a).take n) = bitsVal l / 2 ^ (l.length - a - n) % 2 ^ n := by
  have e : l = l.take a ++ ((l.drop a).take n ++ (l.drop a).drop n) := by
    rw [List.take_append_drop, List.take_append_drop]
  have hlt := bitsVal_lt ((l.drop a).take n)
  have hlt2 := bitsVal_lt ((l.drop a).drop n)
  have len1 : ((l.drop a).take n).length = n := by simp; omega
  have len2 : ((l.drop a).drop n).length = l.length - a - n := by simp; omega
  rw [len1] at hlt
  rw [len2] at hlt2
  conv => rhs; rw [e]
  rw [bitsVal_append, bitsVal_append, List.length_append, len1, len2]
  generalize bitsVal ((l.drop a).take n) = x at *
  generalize bitsVal ((l.drop a).drop n) = y at *
  generalize bitsVal (l.take a) = z
  have hl : (List.take a l ++ (List.take n (List.drop a l) ++ List.drop n (List.drop a l))).length = l.length := by
    rw [← e]
  rw [hl]
  generalize l.length - a - n = m at *
  rw [Nat.pow_add, ← Nat.mul_assoc, ← Nat.add_assoc, ← Nat.add_mul]
  rw [Nat.add_comm _ y, Nat.add_mul_div_right _ _ (Nat.two_pow_pos m), Nat.div_eq_of_lt hlt2, Nat.zero_add,
    Nat.add_comm, Nat.add_mul_mod_self_right, Nat.mod_eq_of_lt hlt]

@[simp] theorem length_uBits (n v : Nat) : (uBits n v).length = n := by
  induction n with
  | zero => rfl
  | succ n ih => simp [uBits, ih]

theorem bitsVal_uBits (n v : Nat) : bitsVal (uBits n v) = v % 2 ^ n := by
  induction n with
  | zero => simp [uBits, Nat.mod_one]
  | succ n ih =>
    rw [uBits, bitsVal_cons, ih, length_uBits, Nat.testBit_eq_decide_div_mod_eq, Nat.mod_pow_succ]
    rcases Nat.mod_two_eq_zero_or_one (v / 2 ^ n) with h | h <;> simp [h]; omega

end Ouro.Spec
