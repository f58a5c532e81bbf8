import Verif.Lemmas.Transport
import Verif.Spec.TransportField
/-! # Lemmas about numbers and fields of any text -/
namespace Ouro
open Spec

theorem decimal_from (ds : Bytes) : ∀ m : Nat, ds.foldl (fun n c => n * 10 + (c.toNat - 48)) m = m * 10 ^ ds.length + decimal ds := by
  unfold decimal
  induction ds with
  | nil => intro m; simp
  | cons c cs ih =>
    intro m
    rw [List.foldl_cons, ih, List.foldl_cons, ih (0 * 10 + (c.toNat - 48))]
    simp only [List.length_cons, Nat.pow_succ, Nat.add_mul]
    rw [Nat.mul_comm (10 ^ cs.length) 10, Nat.mul_assoc]
    omega

theorem scanUint_iff (ds : Bytes) : ∀ m n : Nat, m < 2 ^ 64 → (scanUint m ds = .ok n ↔
    (∀ c ∈ ds, isDigit c = true) ∧ ds.foldl (fun n c => n * 10 + (c.toNat - 48)) m = n ∧ n < 2 ^ 64) := by
  induction ds with
  | nil =>
    intro m n hm
    simp only [scanUint, List.foldl_nil, List.not_mem_nil, false_implies, implies_true, true_and]
    constructor
    · intro h; injection h with h; subst h; exact ⟨rfl, hm⟩
    · rintro ⟨rfl, _⟩; rfl
  | cons c cs ih =>
    intro m n hm
    rw [scanUint]
    by_cases hd : isDigit c = true
    · rw [if_pos hd]
      by_cases hl : m * 10 + (c.toNat - 48) < 2 ^ 64
      · rw [if_pos hl, ih _ _ hl, List.foldl_cons]
        simp only [List.mem_cons, forall_eq_or_imp, hd, true_and]
      · rw [if_neg hl]
        constructor
        · intro h; cases h
        · rintro ⟨_, h2, h3⟩
          rw [List.foldl_cons, decimal_from] at h2
          have : 1 ≤ 10 ^ cs.length := Nat.one_le_pow _ _ (by decide)
          have := Nat.mul_le_mul_left (m * 10 + (c.toNat - 48)) this
          omega
    · rw [if_neg hd]
      constructor
      · intro h; cases h
      · rintro ⟨h, _⟩; exact absurd (h c (by simp)) hd

theorem atoiParts_iff (neg : Bool) (ds : Bytes) (i : Int) : atoiParts neg ds = (i, none) ↔
    ds ≠ [] ∧ (∀ c ∈ ds, isDigit c = true) ∧ i = (if neg then -(decimal ds : Int) else decimal ds) ∧ -(2 ^ 63) ≤ i ∧ i < 2 ^ 63 := by
  unfold atoiParts
  by_cases h0 : ds = []
  · rw [if_pos h0]; simp [h0]
  · rw [if_neg h0]
    cases hs : scanUint 0 ds with
    | error e =>
      have hno : ¬ ((∀ c ∈ ds, isDigit c = true) ∧ decimal ds < 2 ^ 64) := by
        rintro ⟨h1, h2⟩
        have := (scanUint_iff ds 0 (decimal ds) (by decide)).2 ⟨h1, rfl, h2⟩
        rw [hs] at this; cases this
      have : ¬ (ds ≠ [] ∧ (∀ c ∈ ds, isDigit c = true) ∧ i = (if neg then -(decimal ds : Int) else decimal ds) ∧ -(2 ^ 63) ≤ i ∧ i < 2 ^ 63) := by
        rintro ⟨_, h1, h2, h3, h4⟩
        refine hno ⟨h1, ?_⟩
        cases neg
        · simp at h2; omega
        · simp at h2; omega
      cases e
      · simp only [Prod.mk.injEq, reduceCtorEq, and_false, false_iff]; exact this
      · simp only [Prod.mk.injEq, reduceCtorEq, and_false, false_iff]; exact this
    | ok n =>
      obtain ⟨h1, h2, h3⟩ := (scanUint_iff ds 0 n (by decide)).1 hs
      have h2 : decimal ds = n := h2
      subst h2
      dsimp only
      cases neg
      · simp only [Bool.false_eq_true, if_false]
        split
        · simp only [Prod.mk.injEq, reduceCtorEq, and_false, false_iff]; rintro ⟨_, _, rfl, _, h⟩; omega
        · simp only [Prod.mk.injEq, and_true]
          constructor
          · rintro rfl; exact ⟨h0, h1, rfl, by omega, by omega⟩
          · rintro ⟨_, _, h, _⟩; exact h.symm
      · simp only [if_true]
        split
        · simp only [Prod.mk.injEq, reduceCtorEq, and_false, false_iff]; rintro ⟨_, _, rfl, h, _⟩; omega
        · simp only [Prod.mk.injEq, and_true]
          constructor
          · rintro rfl; exact ⟨h0, h1, rfl, by omega, by omega⟩
          · rintro ⟨_, _, h, _⟩; exact h.symm

/-- `strconv.Atoi` accepts exactly the numerals. -/
theorem atoi_iff (v : Bytes) (i : Int) : atoi v = (i, none) ↔ Numeral v i := by
  cases v with
  | nil =>
    simp only [atoi, Prod.mk.injEq, reduceCtorEq, and_false, false_iff]
    rintro ⟨s, ds, h, h0, _⟩
    cases s with
    | nil => exact h0 (by simpa using h.symm)
    | cons _ _ => cases h
  | cons c cs =>
    rw [atoi]
    by_cases hp : c = 43
    · rw [if_pos hp, atoiParts_iff]
      constructor
      · rintro ⟨h0, h1, h2, h3⟩
        exact ⟨b!"+", cs, by rw [hp]; rfl, h0, h1, .inl ⟨.inr rfl, by simpa using h2⟩, h3⟩
      · rintro ⟨s, ds, h, h0, h1, h2, h3⟩
        rcases h2 with ⟨rfl | rfl, h2⟩ | ⟨rfl, h2⟩
        · have : c ∈ ds := by rw [show ds = c :: cs from h.symm]; simp
          exact absurd (h1 c this) (by rw [hp]; decide)
        · injection h with _ h; rw [show cs = ds from h]; exact ⟨h0, h1, by simpa using h2, h3⟩
        · injection h with h _; rw [hp] at h; exact absurd h (by decide)
    · rw [if_neg hp]
      by_cases hm : c = 45
      · rw [if_pos hm, atoiParts_iff]
        constructor
        · rintro ⟨h0, h1, h2, h3⟩
          exact ⟨b!"-", cs, by rw [hm]; rfl, h0, h1, .inr ⟨rfl, by simpa using h2⟩, h3⟩
        · rintro ⟨s, ds, h, h0, h1, h2, h3⟩
          rcases h2 with ⟨rfl | rfl, h2⟩ | ⟨rfl, h2⟩
          · have : c ∈ ds := by rw [show ds = c :: cs from h.symm]; simp
            exact absurd (h1 c this) (by rw [hm]; decide)
          · injection h with h _; exact absurd h hp
          · injection h with _ h; rw [show cs = ds from h]; exact ⟨h0, h1, by simpa using h2, h3⟩
      · rw [if_neg hm, atoiParts_iff]
        constructor
        · rintro ⟨h0, h1, h2, h3⟩
          exact ⟨[], c :: cs, rfl, h0, h1, .inl ⟨.inl rfl, by simpa using h2⟩, h3⟩
        · rintro ⟨s, ds, h, h0, h1, h2, h3⟩
          rcases h2 with ⟨rfl | rfl, h2⟩ | ⟨rfl, h2⟩
          · rw [show c :: cs = ds from h]; exact ⟨h0, h1, by simpa using h2, h3⟩
          · injection h with h _; exact absurd h hp
          · injection h with h _; exact absurd h hm

theorem atoi_bad {v : Bytes} : (atoi v).2 ≠ none ↔ ∀ i, ¬ Numeral v i := by
  constructor
  · intro h i hn
    rw [(atoi_iff v i).2 hn] at h; exact h rfl
  · intro h hn
    exact h (atoi v).1 ((atoi_iff v _).1 (Prod.ext rfl hn))

/-- The pieces of a text with a separator. -/
theorem cut_at {c : UInt8} {s : Bytes} (h : c ∈ s) : ∃ a b, s = a ++ c :: b ∧ c ∉ a := by
  induction s with
  | nil => cases h
  | cons x xs ih =>
    by_cases hx : x = c
    · exact ⟨[], xs, by rw [hx]; rfl, by simp⟩
    · have : c ∈ xs := by rcases List.mem_cons.1 h with h | h; exact absurd h.symm hx; exact h
      obtain ⟨a, b, rfl, hb⟩ := ih this
      exact ⟨x :: a, b, rfl, by simp [hb, Ne.symm hx]⟩

theorem cut_unique {c : UInt8} {a b a' b' : Bytes} (h : a ++ c :: b = a' ++ c :: b') (ha : c ∉ a) (ha' : c ∉ a') : a = a' ∧ b = b' := by
  induction a generalizing a' with
  | nil =>
    cases a' with
    | nil => injection h with _ h; exact ⟨rfl, h⟩
    | cons x xs => injection h with h _; exact absurd (by rw [← h]; simp) ha'
  | cons y ys ih =>
    cases a' with
    | nil => injection h with h _; exact absurd (by rw [h]; simp) ha
    | cons x xs =>
      injection h with h1 h2
      obtain ⟨e1, e2⟩ := ih h2 (fun hc => ha (by simp [hc])) (fun hc => ha' (by simp [hc]))
      exact ⟨by rw [h1, e1], e2⟩

/-- The first piece of a text and the rest. -/
theorem first_piece (c : UInt8) (s : Bytes) : ∃ b rest, s = b ++ rest ∧ c ∉ b ∧ (rest = [] ∨ rest.head? = some c) := by
  by_cases h : c ∈ s
  · obtain ⟨a, b, rfl, hb⟩ := cut_at h
    exact ⟨a, c :: b, rfl, hb, .inr rfl⟩
  · exact ⟨s, [], by simp, h, .inl rfl⟩

theorem split_first {c : UInt8} {b rest : Bytes} (hb : c ∉ b) (hr : rest = [] ∨ rest.head? = some c) : ∃ t, split c (b ++ rest) = b :: t := by
  rcases hr with rfl | hr
  · rw [List.append_nil, split_none hb]; exact ⟨_, rfl⟩
  · cases rest with
    | nil => cases hr
    | cons x xs => injection hr with hr; subst hr; rw [split_append _ hb]; exact ⟨_, rfl⟩

theorem parsePair_iff (v : Bytes) (p : Pair) : parsePair v = (p, none) ↔ RangeText v p := by
  by_cases hd : (45 : UInt8) ∈ v
  · obtain ⟨a, s, rfl, ha⟩ := cut_at hd
    obtain ⟨b, rest, rfl, hb, hr⟩ := first_piece 45 s
    obtain ⟨t, ht⟩ := split_first hb hr
    unfold parsePair
    rw [split_append _ ha, ht]
    dsimp only
    have key : (RangeText (a ++ 45 :: (b ++ rest)) p) ↔ Numeral a p.one ∧ Numeral b p.two := by
      constructor
      · rintro (⟨h, _⟩ | ⟨a', b', rest', h, ha', hb', hr', h1, h2⟩)
        · exact absurd (by simp) h
        · obtain ⟨rfl, h3⟩ := cut_unique h ha ha'
          refine ⟨h1, ?_⟩
          have : b = b' := by
            obtain ⟨t', ht'⟩ := split_first hb' hr'
            rw [← h3, ht] at ht'
            injection ht'
          rw [this]; exact h2
      · rintro ⟨h1, h2⟩; exact .inr ⟨a, b, rest, rfl, ha, hb, hr, h1, h2⟩
    rw [key]
    cases h1 : atoi a with
    | mk one e =>
      cases e with
      | some e =>
        simp only [Prod.mk.injEq, reduceCtorEq, and_false, false_iff, not_and]
        intro h; exact absurd h (atoi_bad.1 (by rw [h1]; simp) _)
      | none =>
        dsimp only
        cases h2 : atoi b with
        | mk two e =>
          cases e with
          | some e =>
            simp only [Prod.mk.injEq, reduceCtorEq, and_false, false_iff, not_and]
            intro _ h; exact absurd h (atoi_bad.1 (by rw [h2]; simp) _)
          | none =>
            simp only [Prod.mk.injEq, and_true]
            rw [← atoi_iff, ← atoi_iff, h1, h2]
            constructor
            · rintro rfl; exact ⟨rfl, rfl⟩
            · rintro ⟨h1, h2⟩; injection h1 with h1; injection h2 with h2; rw [h1, h2]
  · unfold parsePair
    rw [split_none hd]
    dsimp only
    have key : RangeText v p ↔ Numeral v p.one ∧ p.two = 0 := by
      constructor
      · rintro (⟨_, h⟩ | ⟨a', b', rest', h, _⟩)
        · exact h
        · exact absurd (by rw [h]; simp) hd
      · intro h; exact .inl ⟨hd, h⟩
    rw [key, ← atoi_iff]
    cases h1 : atoi v with
    | mk one e =>
      cases e with
      | some e => simp
      | none =>
        simp only [Prod.mk.injEq, and_true]
        constructor
        · rintro rfl; exact ⟨rfl, rfl⟩
        · rintro ⟨h1, h2⟩; cases p; dsimp only at *; rw [h1, h2]

theorem parsePair_bad {v : Bytes} : (parsePair v).2 = none ↔ ∃ p, RangeText v p := by
  constructor
  · intro h; exact ⟨(parsePair v).1, (parsePair_iff v _).1 (Prod.ext rfl h)⟩
  · rintro ⟨p, hp⟩; rw [(parsePair_iff v p).2 hp]

/-- Every field has one name and one value. -/
theorem field_text (f : Bytes) : ∃ key val, FieldText f key val ∧ (splitN2 61 f = key :: val.toList) ∧ ∀ key' val', FieldText f key' val' → key' = key ∧ val' = val := by
  by_cases h : (61 : UInt8) ∈ f
  · obtain ⟨a, b, rfl, ha⟩ := cut_at h
    refine ⟨a, some b, ⟨ha, .inr ⟨b, rfl, rfl⟩⟩, splitN2_append b ha, ?_⟩
    rintro k v ⟨hk, ⟨_, h'⟩ | ⟨w, rfl, h'⟩⟩
    · exact absurd (by rw [← h']; simp) hk
    · obtain ⟨rfl, rfl⟩ := cut_unique h' ha hk; exact ⟨rfl, rfl⟩
  · refine ⟨f, none, ⟨h, .inl ⟨rfl, rfl⟩⟩, splitN2_none h, ?_⟩
    rintro k v ⟨hk, ⟨rfl, h'⟩ | ⟨w, rfl, h'⟩⟩
    · exact ⟨h'.symm, rfl⟩
    · exact absurd (by rw [h']; simp) h

end Ouro
