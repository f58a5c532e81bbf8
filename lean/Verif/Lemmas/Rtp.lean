import Verif.Model.Rtp
import Verif.Spec.Rtp3550
import Verif.Lemmas.Nal2
/-! # Lemmas about the RTP and RTCP decoders -/
namespace Ouro
open Spec

theorem go_bind_ok {α β : Type} (x : Go α) (f : α → Go β) (b : β) :
    (x >>= f) = .ok b ↔ ∃ a, x = .ok a ∧ f a = .ok b := by
  cases x with
  | error p => simp [bind, Except.bind]
  | ok a => simp [bind, Except.bind]

theorem go_ok_bind {α β : Type} (a : α) (f : α → Go β) : ((.ok a : Go α) >>= f) = f a := rfl
theorem go_error_bind {α β : Type} (p : Panic) (f : α → Go β) : ((.error p : Go α) >>= f) = .error p := rfl
theorem go_pure {α : Type} (a : α) : (pure a : Go α) = .ok a := rfl

theorem panics_or_ok {α : Type} (x : Go α) : Panics x ∨ ∃ v, x = .ok v := by
  cases x with
  | error p => exact .inl ⟨p, rfl⟩
  | ok v => exact .inr ⟨v, rfl⟩

theorem length_be32 (n : Nat) : (be32 n).length = 4 := rfl

theorem beU32_be32 {n : Nat} (h : n < 2 ^ 32) (rest : Bytes) : beU32 (be32 n ++ rest) = .ok n := by
  simp only [be32, List.cons_append, List.nil_append, beU32, UInt8.toNat_ofNat']
  congr 1; omega

theorem beU64_be64 {n : Nat} (h : n < 2 ^ 64) (rest : Bytes) : beU64 (be64 n ++ rest) = .ok n := by
  simp only [be64, be32, List.cons_append, List.nil_append, beU64, UInt8.toNat_ofNat']
  congr 1; omega

theorem beU32_inv {b : Bytes} {n : Nat} (h : beU32 b = .ok n) : n < 2 ^ 32 ∧ b = be32 n ++ b.drop 4 := by
  match b, h with
  | x :: y :: z :: w :: rest, h =>
    simp only [beU32] at h
    have h : ((x.toNat * 256 + y.toNat) * 256 + z.toNat) * 256 + w.toNat = n := by injection h
    have := x.toNat_lt; have := y.toNat_lt; have := z.toNat_lt; have := w.toNat_lt
    refine ⟨by omega, ?_⟩
    simp only [be32, List.drop_succ_cons, List.drop_zero, List.cons_append, List.nil_append, List.cons.injEq, and_true]
    refine ⟨?_, ?_, ?_, ?_⟩ <;> apply UInt8.toNat_inj.mp <;> rw [UInt8.toNat_ofNat'] <;> omega

theorem beU16_inv {b : Bytes} {n : Nat} (h : beU16 b = .ok n) : n < 65536 ∧ b = be16 n ++ b.drop 2 := by
  match b, h with
  | x :: y :: rest, h =>
    simp only [beU16] at h
    have h : x.toNat * 256 + y.toNat = n := by injection h
    refine ⟨by rw [← h]; exact two_bytes_lt _ _, ?_⟩
    rw [← h, be16_of_bytes]; rfl

theorem u32At_append {pre rest : Bytes} {v off : Nat} (ho : off = pre.length) (hv : v < 2 ^ 32) :
    u32At (pre ++ (be32 v ++ rest)) off = .ok v := by
  subst ho
  rw [u32At, sliceFrom, if_pos (by simp)]
  simp only [List.drop_left]
  exact beU32_be32 hv rest

theorem u16At_append {pre rest : Bytes} {v off : Nat} (ho : off = pre.length) (hv : v < 65536) :
    u16At (pre ++ (be16 v ++ rest)) off = .ok v := by
  subst ho
  rw [u16At, sliceFrom, if_pos (by simp)]
  simp only [List.drop_left]
  exact beU16_be16 hv rest

theorem u64At_append {pre rest : Bytes} {v off : Nat} (ho : off = pre.length) (hv : v < 2 ^ 64) :
    u64At (pre ++ (be64 v ++ rest)) off = .ok v := by
  subst ho
  rw [u64At, sliceFrom, if_pos (by simp)]
  simp only [List.drop_left]
  exact beU64_be64 hv rest

theorem sliceFrom_append {pre rest : Bytes} {off : Nat} (ho : off = pre.length) :
    sliceFrom (pre ++ rest) off = .ok rest := by
  subst ho
  rw [sliceFrom, if_pos (by simp)]; simp

theorem u32At_inv {buf : Bytes} {off v : Nat} (h : u32At buf off = .ok v) :
    v < 2 ^ 32 ∧ buf.drop off = be32 v ++ buf.drop (off + 4) := by
  unfold u32At sliceFrom at h
  split at h
  · cases h
  · rename_i b hb
    split at hb
    · have hb : buf.drop off = b := by injection hb
      have := beU32_inv h
      rw [← hb] at this
      simpa [List.drop_drop] using this
    · cases hb

theorem u16At_inv {buf : Bytes} {off v : Nat} (h : u16At buf off = .ok v) :
    v < 65536 ∧ buf.drop off = be16 v ++ buf.drop (off + 2) := by
  unfold u16At sliceFrom at h
  split at h
  · cases h
  · rename_i b hb
    split at hb
    · have hb : buf.drop off = b := by injection hb
      have := beU16_inv h
      rw [← hb] at this
      simpa [List.drop_drop] using this
    · cases hb

theorem csrcLoop_append (cs : List Nat) : ∀ (pre rest : Bytes) (off : Nat), off = pre.length → (∀ c ∈ cs, c < 2 ^ 32) →
    csrcLoop (pre ++ (cs.flatMap be32 ++ rest)) cs.length off = .ok cs := by
  induction cs with
  | nil => intros; rfl
  | cons c cs ih =>
    intro pre rest off ho hc
    simp only [List.flatMap_cons, List.length_cons, csrcLoop, List.append_assoc]
    rw [u32At_append ho (hc c (by simp))]
    have := ih (pre ++ be32 c) rest (off + 4) (by simp [length_be32, ho]) (fun d hd => hc d (by simp [hd]))
    rw [List.append_assoc] at this
    simp only [this]

theorem csrcLoop_inv (n : Nat) : ∀ (buf : Bytes) (off : Nat) (cs : List Nat), csrcLoop buf n off = .ok cs →
    cs.length = n ∧ (∀ c ∈ cs, c < 2 ^ 32) ∧ buf.drop off = cs.flatMap be32 ++ buf.drop (off + n * 4) := by
  induction n with
  | zero =>
    intro buf off cs h
    have h : [] = cs := by simp only [csrcLoop] at h; injection h
    subst h; simp
  | succ n ih =>
    intro buf off cs h
    simp only [csrcLoop] at h
    cases hc : u32At buf off with
    | error p => rw [hc] at h; cases h
    | ok c =>
      rw [hc] at h
      simp only at h
      cases hr : csrcLoop buf n (off + 4) with
      | error p => rw [hr] at h; cases h
      | ok cs' =>
        rw [hr] at h
        have h : c :: cs' = cs := by simp only at h; injection h
        subst h
        obtain ⟨h1, h2, h3⟩ := ih _ _ _ hr
        obtain ⟨h4, h5⟩ := u32At_inv hc
        refine ⟨by simp [h1], by simpa using ⟨h4, h2⟩, ?_⟩
        rw [h5, h3, List.flatMap_cons, List.append_assoc, show off + 4 + n * 4 = off + (n + 1) * 4 by omega]

set_option maxRecDepth 100000 in
theorem ver_bits (b : UInt8) : ((b &&& 0xC0) != 0x80) = decide (b.toNat / 64 ≠ 2) := by
  revert b; apply forall_u8; decide
theorem low4 (b : UInt8) : (b &&& 0x0F).toNat = b.toNat % 16 := by
  rw [UInt8.toNat_and]; exact Nat.and_two_pow_sub_one_eq_mod b.toNat 4
theorem low5 (b : UInt8) : (b &&& 0x1F).toNat = b.toNat % 32 := by
  rw [UInt8.toNat_and]; exact Nat.and_two_pow_sub_one_eq_mod b.toNat 5
theorem low7 (b : UInt8) : (b &&& 0x7F).toNat = b.toNat % 128 := by
  rw [UInt8.toNat_and]; exact Nat.and_two_pow_sub_one_eq_mod b.toNat 7
set_option maxRecDepth 100000 in
theorem bit4 (b : UInt8) : ((b &&& 0x10) != 0) = decide (b.toNat / 16 % 2 = 1) := by
  revert b; apply forall_u8; decide
set_option maxRecDepth 100000 in
theorem bit5 (b : UInt8) : ((b &&& 0x20) != 0) = decide (b.toNat / 32 % 2 = 1) := by
  revert b; apply forall_u8; decide
set_option maxRecDepth 100000 in
theorem bit7 (b : UInt8) : ((b &&& 0x80) != 0) = decide (b.toNat / 128 = 1) := by
  revert b; apply forall_u8; decide

end Ouro
