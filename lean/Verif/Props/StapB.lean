import Verif.Props.NalUnits
/-! # C16: STAP-B packets, exactly -/
namespace Ouro
open Spec

/-- The decoding order number and the size of the first unit, written behind each other, contain `00 00 01` or `00 00 03`. -/
def DonHides (don size : Nat) : Prop :=
  don % 256 = 0 ∧ (size = 1 ∨ size = 3) ∨ don = 0 ∧ (size / 256 = 1 ∨ size / 256 = 3)

instance (d n : Nat) : Decidable (DonHides d n) := by unfold DonHides; infer_instance

theorem byte_is {n : Nat} {k : Nat} (hk : k < 256) : UInt8.ofNat n = UInt8.ofNat k ↔ n % 256 = k := by
  constructor
  · intro h
    have := congrArg UInt8.toNat h
    rw [UInt8.toNat_ofNat', UInt8.toNat_ofNat'] at this
    omega
  · intro h
    apply UInt8.toNat_inj.mp
    rw [UInt8.toNat_ofNat', UInt8.toNat_ofNat']
    omega

/-- The patterns of a STAP-B: those of its units, and those at the decoding order number. -/
theorem infix_stapB (k : Nat) (hk : k < 256) (f : UInt8) (don : Nat) (hd : don < 65536) (u : Nal) (us : List Nal)
    (hl : ∀ v ∈ u :: us, Legal v) (hs : ∀ v ∈ u :: us, v.size ≤ 65533) :
    [0, 0, UInt8.ofNat k] <:+: stapB f don (u :: us) ↔
      (don = 0 ∧ u.size / 256 = k) ∨ (don % 256 = 0 ∧ u.size < 256 ∧ u.size = k) ∨ ∃ v ∈ u :: us, [0, 0, UInt8.ofNat k] <:+: v.bytes := by
  rw [← infix_stapA (UInt8.ofNat k) f (u :: us) hl hs, stapA, infix_cons_nz (typeByte_ne f).1, stapB, infix_cons_nz (typeByte_ne f).2.1]
  have hu := hs u (by simp)
  have e : (u :: us).flatMap stapUnit = UInt8.ofNat (u.size / 256) :: UInt8.ofNat u.size :: (u.bytes ++ us.flatMap stapUnit) := by
    simp [List.flatMap_cons, stapUnit, be16]
  rw [e]
  simp only [be16, List.cons_append, List.nil_append]
  rw [List.infix_cons_iff (a := UInt8.ofNat (don / 256)), List.infix_cons_iff (a := UInt8.ofNat don)]
  simp only [List.cons_prefix_cons, List.nil_prefix, and_true]
  rw [show (0 : UInt8) = UInt8.ofNat 0 from rfl]
  rw [eq_comm (a := UInt8.ofNat 0) (b := UInt8.ofNat (don / 256)), eq_comm (a := UInt8.ofNat 0) (b := UInt8.ofNat don),
    eq_comm (a := UInt8.ofNat 0) (b := UInt8.ofNat (u.size / 256)), eq_comm (a := UInt8.ofNat k) (b := UInt8.ofNat u.size),
    eq_comm (a := UInt8.ofNat k) (b := UInt8.ofNat (u.size / 256)),
    byte_is (n := don / 256) (k := 0) (by omega), byte_is (n := don) (k := 0) (by omega), byte_is (n := u.size / 256) (k := 0) (by omega), byte_is (n := u.size) hk,
    byte_is (n := u.size / 256) hk]
  constructor
  · rintro (h | h | h)
    · left; omega
    · right; left; omega
    · exact .inr (.inr h)
  · rintro (h | h | h)
    · left; omega
    · right; left; omega
    · exact .inr (.inr h)

/-- A start code right behind the first byte of a STAP-B: the packet is refused. -/
theorem stapB_don0 (s : NALSink) (f : UInt8) (b : UInt8) (rest : Bytes) (ts : Nat) :
    push s (typeByte f 25 :: 0 :: 0 :: 1 :: b :: rest) ts = .ok (some .packetTooShort, { s with units := [] }) := by
  have ht := (typeByte_ne f).2.1
  have e : pieces [] (typeByte f 25 :: 0 :: 0 :: 1 :: b :: rest) = [typeByte f 25] :: pieces [] (b :: rest) := by
    rw [pieces_cons (by rintro ⟨_, _, h⟩; simp only [List.cons.injEq] at h; exact ht h.1), pieces_start, if_neg (by simp [dropZero, ht])]
    simp [dropZero, ht]
  rw [push, C14_split_exact, e, List.map_cons, unescape_cons_nz ht, show unescape 0 [] = [] from rfl]
  have : parseNAL s [typeByte f 25] ts = .ok (some .packetTooShort, { s with units := [] }) := by
    rw [parseNAL_stap (.inr (typeByte_25 f)), typeByte_25]
    simp [parseSTAP]
  simp only [pushLoop, this]

theorem stapB_hides (don size : Nat) : DonHides don size ↔ ∃ k, (k = 1 ∨ k = 3) ∧ ((don = 0 ∧ size / 256 = k) ∨ (don % 256 = 0 ∧ size < 256 ∧ size = k)) := by
  unfold DonHides
  constructor
  · rintro (⟨h, rfl | rfl⟩ | ⟨h, e | e⟩)
    · exact ⟨1, .inl rfl, .inr ⟨h, by omega, rfl⟩⟩
    · exact ⟨3, .inr rfl, .inr ⟨h, by omega, rfl⟩⟩
    · exact ⟨1, .inl rfl, .inl ⟨h, e⟩⟩
    · exact ⟨3, .inr rfl, .inl ⟨h, e⟩⟩
  · rintro ⟨k, hk, ⟨h, e⟩ | ⟨h, _, e⟩⟩
    · right; exact ⟨h, by omega⟩
    · left; exact ⟨h, by omega⟩

/-- C16, STAP-B, when it holds: a packet of legal units is delivered as RFC 6184 says - no error, exactly its units, in order, numbered
from its decoding order number on - exactly if no unit has an emulation prevention byte and the decoding order number with the size of
the first unit does not look like a start code or like an emulation prevention byte. -/
theorem C16_stapB_iff (s : NALSink) (f : UInt8) (don : Nat) (hd : don < 65536) (u : Nal) (us : List Nal) (hl : ∀ v ∈ u :: us, Legal v)
    (hus : ∀ v ∈ u :: us, v.size ≤ 65533) (ts : Nat) :
    (∃ s', push s (stapB f don (u :: us)) ts = .ok (none, s') ∧ s'.units = numbered don ts (u :: us)) ↔
      (∀ v ∈ u :: us, ¬ Escaped v.bytes) ∧ ¬ DonHides don u.size := by
  have h1 := infix_stapB 1 (by omega) f don hd u us hl hus
  have h3 := infix_stapB 3 (by omega) f don hd u us hl hus
  have hno : ¬ ∃ v ∈ u :: us, [0, 0, UInt8.ofNat 1] <:+: v.bytes := by
    rintro ⟨v, hv, hi⟩; exact (hl v hv).2.1 (.inr (.inl hi))
  constructor
  · rintro ⟨s', h, hu⟩
    have hs1 : ¬ [0, 0, 1] <:+: stapB f don (u :: us) := by
      intro hi
      rcases h1.mp hi with ⟨rfl, hz⟩ | ⟨hz, _, hone⟩ | hx
      · have e : stapB f 0 (u :: us) = typeByte f 25 :: 0 :: 0 :: 1 :: UInt8.ofNat u.size :: (u.bytes ++ us.flatMap stapUnit) := by
          simp only [stapB, be16, List.flatMap_cons, stapUnit, hz, List.cons_append, List.nil_append, List.append_assoc]
          rfl
        rw [e, stapB_don0] at h
        simp at h
      · obtain ⟨x, d⟩ := u
        have : d = [] := by
          cases d with
          | nil => rfl
          | cons a t => simp [Nal.size] at hone
        subst this
        rw [C16_stapB_don_refuted s f don hz x us ts] at h
        simp at h
      · exact hno hx
    have key : ¬ [0, 0, 3] <:+: stapB f don (u :: us) := by
      intro hi
      rw [push_no_start_code _ _ _ hs1, stapB, unescape_cons_nz (typeByte_ne f).2.1, unescape_be16,
        parseNAL_stap (.inr (typeByte_25 f)), typeByte_25] at h
      have hne : ¬ unescape 0 (be16 don ++ (u :: us).flatMap stapUnit) = be16 don ++ (u :: us).flatMap stapUnit := by
        rw [unescape_self_iff]
        intro hno
        apply hno
        rwa [stapB, infix_cons_nz (typeByte_ne f).2.1] at hi
      rw [unescape_be16] at hne
      generalize hM : unescape (zerosBefore (some don)) ((u :: us).flatMap stapUnit) = M at h hne
      have hsub : M.Sublist ((u :: us).flatMap stapUnit) := hM ▸ unescape_sublist _ _
      have hlt : M.length < ((u :: us).flatMap stapUnit).length := by
        rcases Nat.lt_or_ge M.length ((u :: us).flatMap stapUnit).length with h | h
        · exact h
        · exact absurd (by rw [hsub.eq_of_length_le h]) hne
      simp only [be16, List.cons_append, List.nil_append] at h
      rw [parseSTAP_25] at h
      have hdon : (UInt8.ofNat (don / 256)).toNat * 256 + (UInt8.ofNat don).toNat = don := by
        simp only [UInt8.toNat_ofNat']; omega
      rw [hdon] at h
      obtain ⟨vs, tail, e, h2, h3⟩ := stap_cases _ M (Nat.le_refl _)
      rw [e] at h hlt
      have hall := stapLoop_all vs tail h2 { s with units := [], don := don } hd ts
      have : s'.units = numbered don ts vs := by
        rcases h3 with h3 | h3 | h3
        · have := hall.1 h3
          rw [this] at h
          simp only [Except.ok.injEq, Prod.mk.injEq, true_and] at h
          rw [← h, addUnits_eq { s with don := don }]
        · obtain ⟨p, hp⟩ := hall.2.2 h3
          rw [hp] at h; cases h
        · have := hall.2.1 h3
          rw [this] at h
          simp at h
      rw [hu] at this
      have hlen := stapUnit_lengths _ _ (numbered_inj this)
      rw [List.length_append] at hlt
      omega
    refine ⟨fun v hv he => key (h3.mpr (.inr (.inr ⟨v, hv, he⟩))), fun hh => ?_⟩
    obtain ⟨k, rfl | rfl, hk⟩ := (stapB_hides don u.size).mp hh
    · rcases hk with hk | hk
      · exact hs1 (h1.mpr (.inl hk))
      · exact hs1 (h1.mpr (.inr (.inl hk)))
    · rcases hk with hk | hk
      · exact key (h3.mpr (.inl hk))
      · exact key (h3.mpr (.inr (.inl hk)))
  · rintro ⟨he, hh⟩
    have hc : Clean (stapB f don (u :: us)) := by
      refine ⟨fun hi => ?_, fun hi => ?_⟩
      · rcases h1.mp hi with hk | hk | hk
        · exact hh ((stapB_hides _ _).mpr ⟨1, .inl rfl, .inl hk⟩)
        · exact hh ((stapB_hides _ _).mpr ⟨1, .inl rfl, .inr hk⟩)
        · exact hno hk
      · rcases h3.mp hi with hk | hk | ⟨v, hv, hk⟩
        · exact hh ((stapB_hides _ _).mpr ⟨3, .inr rfl, .inl hk⟩)
        · exact hh ((stapB_hides _ _).mpr ⟨3, .inr rfl, .inr hk⟩)
        · exact he v hv hk
    exact ⟨_, C16_stapB_partial s f don hd (u :: us) hus ts hc, rfl⟩

/-- The first packet of a stream has the decoding order number 0: with a first unit of 256 to 511 bytes it is never delivered. With
another number, or size, it is. -/
example : DonHides 0 300 ∧ DonHides 512 3 ∧ ¬ DonHides 512 300 ∧ ¬ DonHides 0 600 ∧ ¬ DonHides 7 3 := by decide
example : (∀ v ∈ [(⟨0x67, [0x42, 0, 0, 0x1f]⟩ : Nal), ⟨0x68, [0xce, 0x38]⟩], Legal v ∧ ¬ Escaped v.bytes ∧ v.size ≤ 65533) ∧
    ¬ DonHides 256 (Nal.size ⟨0x67, [0x42, 0, 0, 0x1f]⟩) := by decide

end Ouro
