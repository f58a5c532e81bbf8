import Verif.Go.Strings
import Verif.Lemmas.Nal2
/-! # Lemmas about the string functions -/
namespace Ouro

/-! ## Split -/

theorem split_ne_nil (c : UInt8) (s : Bytes) : split c s ≠ [] := by
  induction s with
  | nil => simp [split]
  | cons x xs ih =>
    unfold split
    split
    · simp
    · split <;> simp

theorem split_none {c : UInt8} {s : Bytes} (h : c ∉ s) : split c s = [s] := by
  induction s with
  | nil => rfl
  | cons x xs ih =>
    simp only [List.mem_cons, not_or] at h
    unfold split
    rw [if_neg (fun e => h.1 e.symm), ih h.2]

theorem split_append {c : UInt8} {a : Bytes} (b : Bytes) (h : c ∉ a) : split c (a ++ c :: b) = a :: split c b := by
  induction a with
  | nil => simp [split]
  | cons x xs ih =>
    simp only [List.mem_cons, not_or] at h
    rw [List.cons_append, split, if_neg (fun e => h.1 e.symm), ih h.2]

/-- Join with a separator. -/
def joinSep (c : UInt8) : List Bytes → Bytes
  | [] => []
  | [a] => a
  | a :: b :: t => a ++ c :: joinSep c (b :: t)

theorem split_join {c : UInt8} (l : List Bytes) (hl : l ≠ []) (h : ∀ a ∈ l, c ∉ a) : split c (joinSep c l) = l := by
  induction l with
  | nil => exact absurd rfl hl
  | cons a t ih =>
    cases t with
    | nil => exact split_none (h a (by simp))
    | cons b t =>
      show split c (a ++ c :: joinSep c (b :: t)) = _
      rw [split_append _ (h a (by simp)), ih (by simp) (fun x hx => h x (by simp [hx]))]

theorem split_mem {c : UInt8} (s : Bytes) : ∀ p ∈ split c s, c ∉ p := by
  induction s with
  | nil => simp [split]
  | cons x xs ih =>
    unfold split
    by_cases hx : x = c
    · rw [if_pos hx]; intro p hp
      rcases List.mem_cons.1 hp with rfl | hp
      · simp
      · exact ih p hp
    · rw [if_neg hx]
      cases hs : split c xs with
      | nil => exact absurd hs (split_ne_nil c xs)
      | cons y ys =>
        intro p hp
        rw [hs] at ih
        simp only [List.mem_cons] at hp
        rcases hp with rfl | hp
        · simp only [List.mem_cons, not_or]
          exact ⟨fun e => hx e.symm, ih y (by simp)⟩
        · exact ih p (by simp [hp])

theorem split_joinSep (c : UInt8) (s : Bytes) : joinSep c (split c s) = s := by
  induction s with
  | nil => rfl
  | cons x xs ih =>
    unfold split
    by_cases hx : x = c
    · rw [if_pos hx]
      cases hs : split c xs with
      | nil => exact absurd hs (split_ne_nil c xs)
      | cons y ys => rw [hs] at ih; simp [joinSep, ih, hx]
    · rw [if_neg hx]
      cases hs : split c xs with
      | nil => exact absurd hs (split_ne_nil c xs)
      | cons y ys =>
        rw [hs] at ih
        cases ys with
        | nil => simp [joinSep] at ih ⊢; exact ih
        | cons z zs => simp [joinSep] at ih ⊢; exact ih

theorem cut_none {c : UInt8} {s : Bytes} : cut c s = none ↔ c ∉ s := by
  induction s with
  | nil => simp [cut]
  | cons x xs ih =>
    unfold cut
    by_cases hx : x = c
    · rw [if_pos hx]; simp [hx]
    · rw [if_neg hx]
      simp only [List.mem_cons, not_or]
      cases h : cut c xs with
      | none => simp [ih.1 h]; exact fun e => hx e.symm
      | some p =>
        simp only [reduceCtorEq, false_iff, not_and]
        intro _ hn
        rw [ih.2 hn] at h; cases h

theorem cut_append {c : UInt8} {a : Bytes} (b : Bytes) (h : c ∉ a) : cut c (a ++ c :: b) = some (a, b) := by
  induction a with
  | nil => simp [cut]
  | cons x xs ih =>
    simp only [List.mem_cons, not_or] at h
    rw [List.cons_append]
    unfold cut
    rw [if_neg (fun e => h.1 e.symm), ih h.2]

theorem cut_some {c : UInt8} {s a b : Bytes} (h : cut c s = some (a, b)) : s = a ++ c :: b ∧ c ∉ a := by
  induction s generalizing a with
  | nil => simp [cut] at h
  | cons x xs ih =>
    unfold cut at h
    by_cases hx : x = c
    · rw [if_pos hx] at h
      simp only [Option.some.injEq, Prod.mk.injEq] at h
      obtain ⟨rfl, rfl⟩ := h
      simp [hx]
    · rw [if_neg hx] at h
      cases hc : cut c xs with
      | none => rw [hc] at h; cases h
      | some p =>
        obtain ⟨p, q⟩ := p
        rw [hc] at h
        simp only [Option.some.injEq, Prod.mk.injEq] at h
        obtain ⟨rfl, rfl⟩ := h
        obtain ⟨h1, h2⟩ := ih hc
        refine ⟨by rw [h1]; rfl, ?_⟩
        simp only [List.mem_cons, not_or]
        exact ⟨fun e => hx e.symm, h2⟩

theorem splitN2_none {c : UInt8} {s : Bytes} (h : c ∉ s) : splitN2 c s = [s] := by
  unfold splitN2; rw [cut_none.2 h]

theorem splitN2_append {c : UInt8} {a : Bytes} (b : Bytes) (h : c ∉ a) : splitN2 c (a ++ c :: b) = [a, b] := by
  unfold splitN2; rw [cut_append b h]

/-! ## TrimSpace -/

/-- Bytes that are no white space and no part of a non-ASCII rune. -/
def plain (b : UInt8) : Bool := 33 ≤ b && b ≤ 126

set_option maxRecDepth 100000 in
theorem plain_not_space : ∀ b : UInt8, plain b = true → asciiSpace b = false ∧ b ≠ 0xC2 ∧ b ≠ 0xE1 ∧ b ≠ 0xE2 ∧ b ≠ 0xE3 ∧
    b ≠ 0x85 ∧ b ≠ 0xA0 ∧ b ≠ 0x80 ∧ ¬ (0x80 ≤ b) ∧ b ≠ 0x9F := forall_u8 (by decide)

theorem spaceLen_plain {b : UInt8} (h : plain b = true) (t : Bytes) : spaceLen (b :: t) = 0 := by
  obtain ⟨h1, h2, h3, h4, h5, _⟩ := plain_not_space b h
  cases t with
  | nil => simp [spaceLen, h1]
  | cons c t => cases t with
    | nil => simp [spaceLen, h1, h2]
    | cons d t => simp [spaceLen, h1, h2, h3, h4, h5]

theorem spaceLenRev_plain {b : UInt8} (h : plain b = true) (t : Bytes) : spaceLenRev (b :: t) = 0 := by
  obtain ⟨h1, h2, h3, h4, h5, h6, h7, h8, h9, h10⟩ := plain_not_space b h
  have hA8 : b ≠ 0xA8 := by rintro rfl; exact h9 (by decide)
  have hA9 : b ≠ 0xA9 := by rintro rfl; exact h9 (by decide)
  have hAF : b ≠ 0xAF := by rintro rfl; exact h9 (by decide)
  cases t with
  | nil => simp [spaceLenRev, h1]
  | cons c t => cases t with
    | nil => simp [spaceLenRev, h1, h6, h7]
    | cons d t => simp [spaceLenRev, h1, h6, h7, h8, h9, h10, hA8, hA9, hAF]

theorem spaceLen_space {b : UInt8} (h : asciiSpace b = true) (t : Bytes) : spaceLen (b :: t) = 1 := by
  cases t with
  | nil => simp [spaceLen, h]
  | cons c t => cases t <;> simp [spaceLen, h]

theorem spaceLenRev_space {b : UInt8} (h : asciiSpace b = true) (t : Bytes) : spaceLenRev (b :: t) = 1 := by
  cases t with
  | nil => simp [spaceLenRev, h]
  | cons c t => cases t <;> simp [spaceLenRev, h]

theorem dropSpace_stop {len : Bytes → Nat} {s : Bytes} (h : len s = 0) (n : Nat) : dropSpace len n s = s := by
  cases n with
  | zero => rfl
  | succ n => simp [dropSpace, h]

theorem dropSpace_spaces {len : Bytes → Nat} (hs : ∀ b t, asciiSpace b = true → len (b :: t) = 1) (w : Bytes)
    (hw : ∀ b ∈ w, asciiSpace b = true) (s : Bytes) (h : len s = 0) : ∀ n, w.length ≤ n → dropSpace len n (w ++ s) = s := by
  induction w with
  | nil => intro n _; exact dropSpace_stop h n
  | cons b w ih =>
    intro n hn
    obtain ⟨m, rfl⟩ : ∃ m, n = m + 1 := ⟨n - 1, by simp at hn; omega⟩
    rw [List.cons_append]
    unfold dropSpace
    rw [hs b (w ++ s) (hw b (by simp)), if_neg (by omega)]
    exact ih (fun x hx => hw x (by simp [hx])) m (by simp at hn; omega)

/-- The string is empty, or starts and ends with a plain byte. -/
def Trimmed (s : Bytes) : Prop := s = [] ∨ (∃ a t, s = a :: t ∧ plain a = true) ∧ (∃ t z, s = t ++ [z] ∧ plain z = true)

/-- `TrimSpace` removes exactly the white space around a trimmed string. -/
theorem trimSpace_around (u w s : Bytes) (hu : ∀ b ∈ u, asciiSpace b = true) (hw : ∀ b ∈ w, asciiSpace b = true)
    (hs : Trimmed s) : trimSpace (u ++ s ++ w) = s := by
  rcases hs with rfl | ⟨⟨a, t, rfl, ha⟩, t', z, hz, hpz⟩
  · simp only [List.append_nil]
    have h1 : dropSpace spaceLen (u ++ w).length (u ++ w) = [] := by
      have := dropSpace_spaces (len := spaceLen) (fun b t h => spaceLen_space h t) (u ++ w)
        (fun b hb => (List.mem_append.1 hb).elim (hu b) (hw b)) [] rfl (u ++ w).length (Nat.le_refl _)
      rwa [List.append_nil] at this
    unfold trimSpace
    rw [h1]; rfl
  · have h1 : dropSpace spaceLen (u ++ (a :: t) ++ w).length (u ++ (a :: t) ++ w) = (a :: t) ++ w := by
      rw [List.append_assoc]
      exact dropSpace_spaces (fun b t h => spaceLen_space h t) u hu _ (by rw [List.cons_append]; exact spaceLen_plain ha _) _ (by simp)
    unfold trimSpace
    rw [h1]
    dsimp only
    rw [List.reverse_append]
    have h2 : dropSpace spaceLenRev ((a :: t) ++ w).length (w.reverse ++ (a :: t).reverse) = (a :: t).reverse := by
      refine dropSpace_spaces (fun b t h => spaceLenRev_space h t) w.reverse (fun b hb => hw b (by simpa using hb)) _ ?_ _ (by simp; omega)
      rw [hz, List.reverse_append]
      exact spaceLenRev_plain hpz _
    rw [h2, List.reverse_reverse]

theorem trimSpace_id {s : Bytes} (hs : Trimmed s) : trimSpace s = s := by
  have := trimSpace_around [] [] s (by simp) (by simp) hs
  simpa using this

/-! ## Case -/

/-- ASCII strings. -/
def Ascii (s : Bytes) : Prop := ∀ b ∈ s, b < 128

theorem toUpper_ascii {s : Bytes} (h : Ascii s) : toUpper s = s.map upper1 := by
  fun_induction toUpper s with
  | case1 => rfl
  | case2 c => rfl
  | case3 c d t hc => have := h c (by simp); rw [hc.1] at this; exact absurd this (by decide)
  | case4 c d t _ hc => have := h c (by simp); rw [hc.1] at this; exact absurd this (by decide)
  | case5 c d t _ _ ih => rw [ih (fun b hb => h b (List.mem_cons_of_mem _ hb))]; rfl

theorem toLower_ascii {s : Bytes} (h : Ascii s) : toLower s = s.map lower1 := by
  fun_induction toLower s with
  | case1 => rfl
  | case2 c => rfl
  | case3 c d hc => have := h c (by simp); rw [hc.1] at this; exact absurd this (by decide)
  | case4 c d hc => rfl
  | case5 c d e t hc => have := h c (by simp); rw [hc.1] at this; exact absurd this (by decide)
  | case6 c d e t _ hc => have := h c (by simp); rw [hc.1] at this; exact absurd this (by decide)
  | case7 c d e t _ _ ih => rw [ih (fun b hb => h b (List.mem_cons_of_mem _ hb))]; rfl

/-! ## Numbers -/

theorem natDigitsLoop_fuel (n : Nat) : ∀ f, n ≤ f → natDigitsLoop f n = natDigits n := by
  induction n using Nat.strongRecOn with
  | ind n ih =>
    intro f hf
    unfold natDigits
    cases f with
    | zero => obtain rfl : n = 0 := by omega
              rfl
    | succ f =>
      cases n with
      | zero => simp [natDigitsLoop]
      | succ n =>
        rw [natDigitsLoop, natDigitsLoop]
        split
        · rfl
        · rw [ih ((n + 1) / 10) (by omega) f (by omega), ih ((n + 1) / 10) (by omega) n (by omega)]

theorem natDigits_eq (n : Nat) : natDigits n =
    if n < 10 then [UInt8.ofNat (48 + n)] else natDigits (n / 10) ++ [UInt8.ofNat (48 + n % 10)] := by
  rw [← natDigitsLoop_fuel n (n + 1) (by omega), natDigitsLoop]
  split
  · rfl
  · rw [natDigitsLoop_fuel _ _ (by omega)]

theorem natDigits_induct {P : Nat → Bytes → Prop} (h1 : ∀ n, n < 10 → P n [UInt8.ofNat (48 + n)])
    (h2 : ∀ n, ¬ n < 10 → P (n / 10) (natDigits (n / 10)) → P n (natDigits (n / 10) ++ [UInt8.ofNat (48 + n % 10)])) (n : Nat) :
    P n (natDigits n) := by
  induction n using Nat.strongRecOn with
  | ind n ih =>
    rw [natDigits_eq]
    split
    · exact h1 n (by assumption)
    · exact h2 n (by assumption) (ih (n / 10) (by omega))

theorem natDigits_digit (n : Nat) : ∀ c ∈ natDigits n, isDigit c = true := by
  refine natDigits_induct (P := fun _ l => ∀ c ∈ l, isDigit c = true) ?_ ?_ n
  · intro n h c hc
    rw [List.mem_singleton] at hc; subst hc
    have : ∀ k : Fin 10, isDigit (UInt8.ofNat (48 + k.val)) = true := by decide
    exact this ⟨n, h⟩
  · intro n h ih c hc
    rcases List.mem_append.1 hc with hc | hc
    · exact ih c hc
    · rw [List.mem_singleton] at hc; subst hc
      have : ∀ k : Fin 10, isDigit (UInt8.ofNat (48 + k.val)) = true := by decide
      exact this ⟨n % 10, by omega⟩

theorem natDigits_ne_nil (n : Nat) : natDigits n ≠ [] := by
  rw [natDigits_eq]; split <;> simp

theorem scanUint_append (a b : Bytes) (m k : Nat) (h : scanUint m a = .ok k) : scanUint m (a ++ b) = scanUint k b := by
  induction a generalizing m with
  | nil => simp [scanUint] at h; subst h; rfl
  | cons c cs ih =>
    rw [List.cons_append]
    unfold scanUint at h
    rw [scanUint]
    split at h
    · rename_i hd
      rw [if_pos hd]
      split at h
      · rename_i hl
        rw [if_pos hl]; exact ih _ h
      · cases h
    · cases h

theorem digit_val : ∀ k : Fin 10, (UInt8.ofNat (48 + k.val)).toNat - 48 = k.val ∧ isDigit (UInt8.ofNat (48 + k.val)) = true := by decide

theorem scanUint_one (m d : Nat) (hd : d < 10) (h : m * 10 + d < 2 ^ 64) : scanUint m [UInt8.ofNat (48 + d)] = .ok (m * 10 + d) := by
  obtain ⟨h1, h2⟩ := digit_val ⟨d, hd⟩
  simp only at h1 h2
  unfold scanUint
  rw [if_pos h2, h1, if_pos h]; rfl

theorem scanUint_natDigits (n : Nat) (h : n < 2 ^ 64) : scanUint 0 (natDigits n) = .ok n := by
  revert h
  refine natDigits_induct (P := fun n l => n < 2 ^ 64 → scanUint 0 l = .ok n) ?_ ?_ n
  · intro n hn h
    have := scanUint_one 0 n hn (by omega)
    simpa using this
  · intro n hn ih h
    rw [scanUint_append _ _ _ _ (ih (by omega)), scanUint_one _ _ (by omega) (by omega)]
    congr 1; omega

theorem isDigit_ne {c : UInt8} (h : isDigit c = true) : c ≠ 43 ∧ c ≠ 45 := by
  constructor <;> (rintro rfl; exact absurd h (by decide))

theorem atoi_natDigits (n : Nat) (h : n < 2 ^ 63) : atoi (natDigits n) = ((n : Int), none) := by
  cases hd : natDigits n with
  | nil => exact absurd hd (natDigits_ne_nil n)
  | cons c cs =>
    have hc := isDigit_ne (natDigits_digit n c (by rw [hd]; simp))
    rw [atoi, if_neg hc.1, if_neg hc.2]
    unfold atoiParts
    rw [if_neg (by simp), ← hd, scanUint_natDigits n (by omega)]
    dsimp only
    rw [if_neg (by simp), if_neg (by omega)]

theorem atoi_itoa (i : Int) (h1 : -(2 ^ 63) ≤ i) (h2 : i < 2 ^ 63) : atoi (itoa i) = (i, none) := by
  unfold itoa
  by_cases hn : i < 0
  · rw [if_pos hn]
    show atoiParts true _ = _
    unfold atoiParts
    rw [if_neg (natDigits_ne_nil _), scanUint_natDigits _ (by omega)]
    dsimp only
    rw [if_pos rfl, if_neg (by omega)]
    congr 1; omega
  · rw [if_neg hn, atoi_natDigits i.natAbs (by omega)]
    congr 1; omega

/-- A byte string of digits. -/
theorem itoa_bytes (i : Int) : ∀ c ∈ itoa i, isDigit c = true ∨ c = 45 := by
  unfold itoa
  split
  · intro c hc
    rcases List.mem_cons.1 hc with rfl | hc
    · exact .inr rfl
    · exact .inl (natDigits_digit _ c hc)
  · intro c hc; exact .inl (natDigits_digit _ c hc)

/-! ## hex -/

theorem hexVal_hexDigit : ∀ n : Fin 16, hexVal (hexDigit n.val) = some n.val := by decide

theorem hexDecode_encode (b : Bytes) : hexDecode (hexEncode b) = b := by
  induction b with
  | nil => rfl
  | cons x xs ih =>
    have hx := x.toNat_lt
    have h1 := hexVal_hexDigit ⟨x.toNat / 16, by omega⟩
    have h2 := hexVal_hexDigit ⟨x.toNat % 16, by omega⟩
    simp only at h1 h2
    show hexDecode (hexDigit (x.toNat / 16) :: hexDigit (x.toNat % 16) :: hexEncode xs) = x :: xs
    unfold hexDecode
    rw [h1, h2, ih]
    dsimp only
    rw [show x.toNat / 16 * 16 + x.toNat % 16 = x.toNat by omega, UInt8.ofNat_toNat]

/-! ## base64 -/

theorem b64val_char : ∀ n : Fin 64, b64val (b64char n.val) = some n.val := by decide

theorem b64val_char' {n : Nat} (h : n < 64) : b64val (b64char n) = some n := b64val_char ⟨n, h⟩

theorem b64Bytes_one (a : UInt8) : b64Bytes [a.toNat / 4, a.toNat % 4 * 16] = [a] := by
  have ha := a.toNat_lt
  simp only [b64Bytes]
  rw [show a.toNat / 4 * 4 + a.toNat % 4 * 16 / 16 = a.toNat by omega, UInt8.ofNat_toNat]

theorem b64Bytes_two (a b : UInt8) :
    b64Bytes [a.toNat / 4, a.toNat % 4 * 16 + b.toNat / 16, b.toNat % 16 * 4] = [a, b] := by
  have ha := a.toNat_lt
  have hb := b.toNat_lt
  simp only [b64Bytes]
  rw [show a.toNat / 4 * 4 + (a.toNat % 4 * 16 + b.toNat / 16) / 16 = a.toNat by omega,
    show (a.toNat % 4 * 16 + b.toNat / 16) % 16 * 16 + b.toNat % 16 * 4 / 4 = b.toNat by omega, UInt8.ofNat_toNat, UInt8.ofNat_toNat]

theorem b64Bytes_three (a b c : UInt8) :
    b64Bytes [a.toNat / 4, a.toNat % 4 * 16 + b.toNat / 16, b.toNat % 16 * 4 + c.toNat / 64, c.toNat % 64] = [a, b, c] := by
  have ha := a.toNat_lt
  have hb := b.toNat_lt
  have hc := c.toNat_lt
  simp only [b64Bytes]
  rw [show a.toNat / 4 * 4 + (a.toNat % 4 * 16 + b.toNat / 16) / 16 = a.toNat by omega,
    show (a.toNat % 4 * 16 + b.toNat / 16) % 16 * 16 + (b.toNat % 16 * 4 + c.toNat / 64) / 4 = b.toNat by omega,
    show (b.toNat % 16 * 4 + c.toNat / 64) % 4 * 64 + c.toNat % 64 = c.toNat by omega,
    UInt8.ofNat_toNat, UInt8.ofNat_toNat, UInt8.ofNat_toNat]

theorem b64Decode_encode (b : Bytes) : b64Decode (b64Encode b) = (b, false) := by
  unfold b64Decode
  fun_induction b64Encode b with
  | case1 => rfl
  | case2 a =>
    have ha := a.toNat_lt
    have h := b64Bytes_one a
    simp only [b64Loop, b64val_char' (show a.toNat / 4 < 64 by omega), b64val_char' (show a.toNat % 4 * 16 < 64 by omega)]
    simp [b64val, skipNL, h]
  | case3 a b =>
    have ha := a.toNat_lt
    have hb := b.toNat_lt
    have h := b64Bytes_two a b
    simp only [b64Loop, b64val_char' (show a.toNat / 4 < 64 by omega),
      b64val_char' (show a.toNat % 4 * 16 + b.toNat / 16 < 64 by omega), b64val_char' (show b.toNat % 16 * 4 < 64 by omega)]
    simp [b64val, skipNL, h]
  | case4 a b c t ih =>
    have ha := a.toNat_lt
    have hb := b.toNat_lt
    have hc := c.toNat_lt
    have h := b64Bytes_three a b c
    simp only [b64Loop, b64val_char' (show a.toNat / 4 < 64 by omega),
      b64val_char' (show a.toNat % 4 * 16 + b.toNat / 16 < 64 by omega),
      b64val_char' (show b.toNat % 16 * 4 + c.toNat / 64 < 64 by omega), b64val_char' (show c.toNat % 64 < 64 by omega), ih]
    simp [h]

end Ouro
