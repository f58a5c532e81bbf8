import Verif.Props.Pps

/-! C32: exactly which conforming picture parameter sets are decoded. -/

namespace Ouro
open Spec

/-- **C32, exactly**, for a conforming picture parameter set whose sequence parameter set is known, followed by trailing bits: it is stored under its id with
every element in its field if and only if it has the extension and its slice groups are not of type 3 or 4. (Sets of type 3 or 4 whose direction and rate are
both zero are left out: there the lost values are those of a set never filled in.) -/
theorem C32_iff (inf : Nat) (st : ParameterSets) (buf : Bytes) (p : Pps) (sps : SPSInfo) (k : Nat)
    (hsps : st.getSPS p.seq_parameter_set_id = some sps) (hv : p.Valid sps.chromaFormatIdc)
    (hz : 0 < p.num_slice_groups_minus1 → ∀ t d r, p.groups = .changing t d r → t = 5 ∨ d = true ∨ r ≠ 0)
    (hbuf : bitsOf buf = p.bits ++ trailing k) :
    (∃ st' i, parsePPS inf st buf = .ok (none, st') ∧ st'.getPPS p.pic_parameter_set_id = some i ∧ PpsDecoded i p) ↔
      p.ext ≠ none ∧ (0 < p.num_slice_groups_minus1 → ∀ d r, p.groups ≠ .changing 3 d r ∧ p.groups ≠ .changing 4 d r) := by
  have unread : (0 < p.num_slice_groups_minus1 → ¬ UnreadGroups p.groups) ↔
      (0 < p.num_slice_groups_minus1 → ∀ d r, p.groups ≠ .changing 3 d r ∧ p.groups ≠ .changing 4 d r) := by
    constructor
    · intro h hn d r
      exact ⟨fun e => h hn (by rw [e]; exact .inl rfl), fun e => h hn (by rw [e]; exact .inr rfl)⟩
    · intro h hn hu
      cases hg : p.groups with
      | changing t d r =>
        rw [hg] at hu
        rcases hu with rfl | rfl
        · exact (h hn d r).1 hg
        · exact (h hn d r).2 hg
      | _ => rw [hg] at hu; exact hu
  rw [← unread]
  constructor
  · rintro ⟨st', i, hok, hi, hd⟩
    have hu : 0 < p.num_slice_groups_minus1 → ¬ UnreadGroups p.groups := by
      intro hn hu
      cases hg : p.groups with
      | changing t d r =>
        rw [hg] at hu
        obtain ⟨pre, rest, kk, hb, hk1, hk2⟩ := steps_pps_types34 inf st.spset p _ hv hn t d r hg hu
        have hne : buf ≠ [] := buf_ne_nil hbuf (by simp [Pps.bits, pps_bits_ne])
        rw [hb, List.append_assoc] at hbuf
        obtain ⟨r', h1, _⟩ := hk1 (newBitReader buf) (rest ++ trailing k) (newBitReader_inv _) hne (by rw [newBitReader_rest, hbuf])
        unfold parsePPS at hok
        rw [h1] at hok
        cases hkr : kk r' with
        | error p => rw [hkr] at hok; cases hok
        | ok x =>
          obtain ⟨x, r''⟩ := x
          rw [hkr] at hok
          cases x with
          | error e => simp at hok
          | ok info =>
            simp only [Except.ok.injEq, Prod.mk.injEq, true_and] at hok
            subst hok
            simp only [ParameterSets.getPPS] at hi
            have hgd := hd.2.2.2.2.2.1 hn
            rw [hg] at hgd
            have := hk2 _ _ _ hkr
            split at hi
            · injection hi with hi; subst hi
              rcases hz hn t d r hg with rfl | h | h
              · rcases hu with h | h <;> cases h
              · rw [← hgd.2.1, this.1] at h; cases h
              · exact h (by rw [← hgd.2.2, this.2.1])
            · rename_i hid
              exact absurd this.2.2.symm hid
      | _ => rw [hg] at hu; exact hu
    refine ⟨fun he => ?_, hu⟩
    rw [C32_no_extension_refuted inf st buf p _ k hv hu he hbuf] at hok
    injection hok with hok
    injection hok with hok _
    cases hok
  · rintro ⟨hext, hg⟩
    obtain ⟨st', i, h1, h2, h3, _⟩ := C32_pps_partial inf st buf p sps (trailing k) hsps hv hg hext hbuf
    exact ⟨st', i, h1, h2, h3⟩

/-- The hypotheses are met by a set with the extension (the right side holds) and by one of type 3 (it does not). -/
example : ppsHigh.Valid 1 ∧ ppsHigh.ext ≠ none ∧ ¬ UnreadGroups ppsHigh.groups ∧ ppsType3.num_slice_groups_minus1 = 1 ∧ ppsType3.groups = .changing 3 true 0 :=
  ⟨ppsHigh_valid, by simp [ppsHigh], by simp [ppsHigh, UnreadGroups], rfl, rfl⟩

end Ouro
