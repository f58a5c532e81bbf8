import Verif.Lemmas.Nal
import Verif.Props.AnnexB
/-! # Lemmas about packet.go: whole packets -/
namespace Ouro
open Spec

theorem forall_u8 {P : UInt8 → Prop} (h : ∀ n : Fin 256, P (UInt8.ofNat n.val)) (b : UInt8) : P b := by
  have := h ⟨b.toNat, b.toNat_lt⟩
  simpa using this

theorem len2 (n : Nat) : (n + 1 + 1 < 2) = False := by simp
theorem len4 (n : Nat) : (n + 1 + 1 + 1 + 1 < 4) = False := by simp

set_option maxRecDepth 100000
theorem typeByte_24 (f : UInt8) : typeByte f 24 &&& 0x1F = 24 := by revert f; apply forall_u8; decide
theorem typeByte_25 (f : UInt8) : typeByte f 25 &&& 0x1F = 25 := by revert f; apply forall_u8; decide
theorem typeByte_26 (f : UInt8) : typeByte f 26 &&& 0x1F = 26 := by revert f; apply forall_u8; decide
theorem typeByte_27 (f : UInt8) : typeByte f 27 &&& 0x1F = 27 := by revert f; apply forall_u8; decide
theorem typeByte_28 (f : UInt8) : typeByte f 28 &&& 0x1F = 28 := by revert f; apply forall_u8; decide
theorem typeByte_29 (f : UInt8) : typeByte f 29 &&& 0x1F = 29 := by revert f; apply forall_u8; decide
theorem typeByte_28_nri (f : UInt8) : typeByte f 28 &&& 0x60 = f &&& 0x60 := by revert f; apply forall_u8; decide
theorem typeByte_29_nri (f : UInt8) : typeByte f 29 &&& 0x60 = f &&& 0x60 := by revert f; apply forall_u8; decide
theorem fuHeader_type (a b : Bool) (h : UInt8) : fuHeader a b h &&& 0x1F = h &&& 0x1F := by
  cases a <;> cases b <;> (revert h; apply forall_u8; decide)
theorem fuHeader_start (a b : Bool) (h : UInt8) : ((fuHeader a b h &&& 0x80) != 0) = a := by
  cases a <;> cases b <;> (revert h; apply forall_u8; decide)
theorem fuHeader_end (a b : Bool) (h : UInt8) : ((fuHeader a b h &&& 0x40) != 0) = b := by
  cases a <;> cases b <;> (revert h; apply forall_u8; decide)
theorem rebuild_header (h : UInt8) : (h &&& 0x60) + (h &&& 0x1F) = h &&& 0x7F := by revert h; apply forall_u8; decide
theorem header_low (h : UInt8) (h0 : h &&& 0x80 = 0) : h &&& 0x7F = h := by
  revert h0; revert h; apply forall_u8; decide

theorem parseNAL_stap {b0 : UInt8} (h : b0 &&& 0x1F = 24 ∨ b0 &&& 0x1F = 25) (s : NALSink) (rest : Bytes) (ts : Nat) :
    parseNAL s (b0 :: rest) ts = parseSTAP (b0 &&& 0x1F) { s with units := [] } rest ts := by
  unfold parseNAL
  rcases h with h | h <;> simp [h]

theorem parseNAL_mtap {b0 : UInt8} (h : b0 &&& 0x1F = 26 ∨ b0 &&& 0x1F = 27) (s : NALSink) (rest : Bytes) (ts : Nat) :
    parseNAL s (b0 :: rest) ts = parseMTAP (b0 &&& 0x1F) { s with units := [] } rest ts := by
  unfold parseNAL
  rcases h with h | h <;> simp [h]

theorem parseNAL_single {b0 : UInt8} (h24 : b0 &&& 0x1F ≠ 24) (h25 : b0 &&& 0x1F ≠ 25) (h26 : b0 &&& 0x1F ≠ 26)
    (h27 : b0 &&& 0x1F ≠ 27) (h28 : b0 &&& 0x1F ≠ 28) (h29 : b0 &&& 0x1F ≠ 29) (s : NALSink) (rest : Bytes) (ts : Nat) :
    parseNAL s (b0 :: rest) ts = .ok (none, { s with
      units := [{ header := b0, don := s.don, ts := ts, data := rest }], don := u16 (s.don + 1) }) := by
  unfold parseNAL
  simp [h24, h25, h26, h27, h28, h29]

theorem parseNAL_fuA (s : NALSink) (header : UInt8) (a b : Bool) (piece : Bytes) (ts : Nat) :
    parseNAL s (fuA header a b piece) ts =
      .ok (none, addFragment { s with units := [] } (header &&& 0x7F) (fuHeader a b header) s.don ts piece) := by
  have ht := typeByte_28 header
  unfold parseNAL fuA
  simp only [ht, typeByte_28_nri]
  simp [idx, sliceFrom, fuHeader_type, rebuild_header, len2]

theorem parseNAL_fuB (s : NALSink) (header : UInt8) (a b : Bool) (don : Nat) (hd : don < 65536) (piece : Bytes) (ts : Nat) :
    parseNAL s (fuB header a b don piece) ts =
      .ok (none, addFragment { s with units := [] } (header &&& 0x7F) (fuHeader a b header) don ts piece) := by
  have ht := typeByte_29 header
  have hb := beU16_be16 hd piece
  unfold parseNAL fuB
  simp only [ht, typeByte_29_nri]
  simp only [be16, List.cons_append, List.nil_append] at hb
  simp [idx, sliceFrom, fuHeader_type, rebuild_header, be16, hb, len4]

/-- `parseNAL` on an aggregated body: fatal bodies, in terms of the packet format. -/
inductive Fatal : Bytes → Prop
  | stapA (b0 : UInt8) (us : List Nal) (tail : Bytes) : b0 &&& 0x1F = 24 → (∀ u ∈ us, u.size ≤ 65533) → StapBad tail →
      Fatal (b0 :: (us.flatMap stapUnit ++ tail))
  | stapB (b0 x y : UInt8) (us : List Nal) (tail : Bytes) : b0 &&& 0x1F = 25 → (∀ u ∈ us, u.size ≤ 65533) → StapBad tail →
      Fatal (b0 :: x :: y :: (us.flatMap stapUnit ++ tail))
  | mtap (b0 x y : UInt8) (us : List MtapNal) (tail : Bytes) : b0 &&& 0x1F = 26 ∨ b0 &&& 0x1F = 27 →
      (∀ u ∈ us, u.nal.size + mtapHdr (b0 &&& 0x1F) < 65536) → MtapBad (b0 &&& 0x1F) tail →
      Fatal (b0 :: x :: y :: (us.flatMap (mtapUnit (b0 &&& 0x1F)) ++ tail))

theorem beU16_lt {b : Bytes} {n : Nat} (h : beU16 b = .ok n) : n < 65536 := by
  match b, h with
  | x :: y :: _, h =>
    simp only [beU16] at h
    have h : x.toNat * 256 + y.toNat = n := by cases h; rfl
    have := x.toNat_lt; have := y.toNat_lt
    omega

theorem parseSTAP_24 (s : NALSink) (buf : Bytes) (ts : Nat) :
    parseSTAP 24 s buf ts = stapLoop (buf.length + 1) s buf ts := by
  simp [parseSTAP]
theorem parseSTAP_25 (s : NALSink) (x y : UInt8) (rest : Bytes) (ts : Nat) :
    parseSTAP 25 s (x :: y :: rest) ts =
      stapLoop (rest.length + 1) { s with don := x.toNat * 256 + y.toNat } rest ts := by
  simp [parseSTAP, beU16, sliceFrom, len2]
theorem parseMTAP_eq (typ : UInt8) (s : NALSink) (x y : UInt8) (rest : Bytes) (ts : Nat) :
    parseMTAP typ s (x :: y :: rest) ts =
      mtapLoop (rest.length + 1) typ (mtapHdr typ) { s with don := x.toNat * 256 + y.toNat } rest ts := by
  simp [parseMTAP, beU16, sliceFrom, mtapHdr, len2]

theorem two_bytes_lt (x y : UInt8) : x.toNat * 256 + y.toNat < 65536 := by
  have := x.toNat_lt; have := y.toNat_lt; omega

theorem not_panics_ok {α} (x : α) : ¬ Panics (.ok x : Go α) := by rintro ⟨p, hp⟩; cases hp

theorem parseNAL_panics_iff (s : NALSink) (hs : s.don < 65536) (nal : Bytes) (ts : Nat) :
    Panics (parseNAL s nal ts) ↔ Fatal nal := by
  constructor
  · intro h
    match nal, h with
    | [], h => simp [parseNAL, Panics] at h
    | b0 :: rest, h =>
      by_cases h24 : b0 &&& 0x1F = 24
      · rw [parseNAL_stap (.inl h24), h24, parseSTAP_24] at h
        obtain ⟨us, tail, rfl, h2, h3⟩ := stap_cases _ rest (Nat.le_refl _)
        have := stapLoop_all us tail h2 { s with units := [] } hs ts
        rcases h3 with h3 | h3 | h3
        · rw [this.1 h3] at h; exact absurd h (not_panics_ok _)
        · exact .stapA b0 us tail h24 h2 h3
        · rw [this.2.1 h3] at h; exact absurd h (not_panics_ok _)
      by_cases h25 : b0 &&& 0x1F = 25
      · rw [parseNAL_stap (.inr h25), h25] at h
        match rest, h with
        | [], h => simp [parseSTAP, Panics] at h
        | [_], h => simp [parseSTAP, Panics] at h
        | x :: y :: rest, h =>
          rw [parseSTAP_25] at h
          obtain ⟨us, tail, rfl, h2, h3⟩ := stap_cases _ rest (Nat.le_refl _)
          have := stapLoop_all us tail h2 { s with units := [], don := x.toNat * 256 + y.toNat } (two_bytes_lt _ _) ts
          rcases h3 with h3 | h3 | h3
          · rw [this.1 h3] at h; exact absurd h (not_panics_ok _)
          · exact .stapB b0 x y us tail h25 h2 h3
          · rw [this.2.1 h3] at h; exact absurd h (not_panics_ok _)
      by_cases hm : b0 &&& 0x1F = 26 ∨ b0 &&& 0x1F = 27
      · rw [parseNAL_mtap hm] at h
        match rest, h with
        | [], h => simp [parseMTAP, Panics] at h
        | [_], h => simp [parseMTAP, Panics] at h
        | x :: y :: rest, h =>
          rw [parseMTAP_eq] at h
          obtain ⟨us, tail, rfl, h2, h3⟩ := mtap_cases (b0 &&& 0x1F) _ rest (Nat.le_refl _)
          have := mtapLoop_all (b0 &&& 0x1F) us tail h2 { s with units := [], don := x.toNat * 256 + y.toNat }
            (two_bytes_lt _ _) ts
          rcases h3 with h3 | h3 | h3
          · rw [this.1 h3] at h; exact absurd h (not_panics_ok _)
          · exact .mtap b0 x y us tail hm h2 h3
          · rw [this.2.1 h3] at h; exact absurd h (not_panics_ok _)
      have h26 : b0 &&& 0x1F ≠ 26 := fun e => hm (.inl e)
      have h27 : b0 &&& 0x1F ≠ 27 := fun e => hm (.inr e)
      exfalso
      by_cases h28 : b0 &&& 0x1F = 28
      · unfold parseNAL at h
        simp only [h28] at h
        match rest, h with
        | [], h => simp [Panics] at h
        | _ :: _, h => simp [Panics, idx, sliceFrom, len2] at h
      by_cases h29 : b0 &&& 0x1F = 29
      · unfold parseNAL at h
        simp only [h29] at h
        match rest, h with
        | [], h => simp [Panics] at h
        | [_], h => simp [Panics] at h
        | [_, _], h => simp [Panics] at h
        | _ :: x :: y :: _, h => simp [Panics, idx, sliceFrom, beU16, len4] at h
      rw [parseNAL_single h24 h25 h26 h27 h28 h29] at h
      exact absurd h (not_panics_ok _)
  · intro h
    cases h with
    | stapA b0 us tail h24 h2 h3 =>
      rw [parseNAL_stap (.inl h24), h24, parseSTAP_24]
      exact (stapLoop_all us tail h2 { s with units := [] } hs ts).2.2 h3
    | stapB b0 x y us tail h25 h2 h3 =>
      rw [parseNAL_stap (.inr h25), h25, parseSTAP_25]
      exact (stapLoop_all us tail h2 _ (two_bytes_lt _ _) ts).2.2 h3
    | mtap b0 x y us tail hm h2 h3 =>
      rw [parseNAL_mtap hm, parseMTAP_eq]
      exact (mtapLoop_all _ us tail h2 _ (two_bytes_lt _ _) ts).2.2 h3

/-- The order number stays a 16-bit value. -/
theorem stapLoop_don (fuel : Nat) : ∀ (s : NALSink) (buf : Bytes) (ts : Nat) e s', s.don < 65536 →
    stapLoop fuel s buf ts = .ok (e, s') → s'.don < 65536 := by
  induction fuel with
  | zero => intro s buf ts e s' _ h; simp [stapLoop] at h
  | succ n ih =>
    intro s buf ts e s' hs h
    rw [stapLoop] at h
    split at h
    · cases h; exact hs
    · split at h
      · cases h
      · split at h
        · cases h; exact hs
        · split at h
          · cases h
          · split at h
            · cases h
            · split at h
              · cases h
              · exact ih _ _ _ _ _ (by simp only [u16]; omega) h

theorem mtapLoop_don (fuel : Nat) : ∀ (typ : UInt8) (off : Nat) (s : NALSink) (buf : Bytes) (ts : Nat) e s',
    s.don < 65536 → mtapLoop fuel typ off s buf ts = .ok (e, s') → s'.don < 65536 := by
  induction fuel with
  | zero => intro typ off s buf ts e s' _ h; simp [mtapLoop] at h
  | succ n ih =>
    intro typ off s buf ts e s' hs h
    rw [mtapLoop] at h
    split at h
    · cases h; exact hs
    · split at h
      · split at h
        · cases h
        · split at h
          · cases h; exact hs
          · split at h
            · cases h
            · split at h
              · cases h
              · split at h
                · cases h
                · exact ih _ _ _ _ _ _ _ (by simp only [u16]; omega) h
      all_goals cases h

theorem addFragment_don (s : NALSink) (a b : UInt8) (don ts : Nat) (d : Bytes) : (addFragment s a b don ts d).don = s.don := by
  simp only [addFragment]; split <;> rfl

theorem parseNAL_don {s : NALSink} (hs : s.don < 65536) {nal : Bytes} {ts : Nat} {e s'}
    (h : parseNAL s nal ts = .ok (e, s')) : s'.don < 65536 := by
  match nal, h with
  | [], h => simp only [parseNAL] at h; cases h; exact hs
  | b0 :: rest, h =>
    by_cases hst : b0 &&& 0x1F = 24 ∨ b0 &&& 0x1F = 25
    · rw [parseNAL_stap hst] at h
      rcases hst with h24 | h25
      · rw [h24, parseSTAP_24] at h; exact stapLoop_don _ { s with units := [] } _ _ _ _ hs h
      · rw [h25] at h
        match rest, h with
        | [], h => simp [parseSTAP] at h; rw [← h.2]; exact hs
        | [_], h => simp [parseSTAP] at h; rw [← h.2]; exact hs
        | x :: y :: rest, h => rw [parseSTAP_25] at h; exact stapLoop_don _ _ _ _ _ _ (two_bytes_lt _ _) h
    by_cases hm : b0 &&& 0x1F = 26 ∨ b0 &&& 0x1F = 27
    · rw [parseNAL_mtap hm] at h
      match rest, h with
      | [], h => simp [parseMTAP] at h; rw [← h.2]; exact hs
      | [_], h => simp [parseMTAP] at h; rw [← h.2]; exact hs
      | x :: y :: rest, h => rw [parseMTAP_eq] at h; exact mtapLoop_don _ _ _ _ _ _ _ _ (two_bytes_lt _ _) h
    simp only [not_or] at hst hm
    by_cases h28 : b0 &&& 0x1F = 28
    · unfold parseNAL at h
      simp only [h28] at h
      match rest, h with
      | [], h => simp at h; rw [← h.2]; exact hs
      | _ :: _, h => simp [idx, sliceFrom, len2] at h; rw [← h.2, addFragment_don]; exact hs
    by_cases h29 : b0 &&& 0x1F = 29
    · unfold parseNAL at h
      simp only [h29] at h
      match rest, h with
      | [], h => simp at h; rw [← h.2]; exact hs
      | [_], h => simp at h; rw [← h.2]; exact hs
      | [_, _], h => simp at h; rw [← h.2]; exact hs
      | _ :: x :: y :: _, h => simp [idx, sliceFrom, beU16, len4] at h; rw [← h.2, addFragment_don]; exact hs
    rw [parseNAL_single hst.1 hst.2 hm.1 hm.2 h28 h29] at h
    cases h
    simp only [u16]; omega

/-- Whether a unit parses does not depend on the sink. -/
def NalOk (nal : Bytes) : Prop := ∀ s : NALSink, s.don < 65536 → ∀ ts, ∃ s', parseNAL s nal ts = .ok (none, s')

end Ouro
