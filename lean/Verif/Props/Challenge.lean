import Verif.Spec.Challenge
import Verif.Props.Digest
import Verif.Props.Dial
import Verif.Lemmas.TransportField
/-! # C41 for the whole grammar of challenges -/
namespace Ouro
open Spec

/-! ## Texts -/

theorem spaceLenRev_le3 (s : Bytes) : spaceLenRev s ≤ 3 := by
  unfold spaceLenRev
  repeat' split
  all_goals omega

theorem spaceLenRev_before {z : UInt8} (hz : plain z = true) (x y : Bytes) : spaceLenRev (x ++ z :: y) ≤ x.length := by
  match x with
  | [] => rw [List.nil_append, spaceLenRev_plain hz]; exact Nat.le_refl _
  | [a] =>
    obtain ⟨h1, h2, h3, h4, h5, h6, h7, h8, h9, h10⟩ := plain_not_space z hz
    have h9A : z ≠ 0x9A := by rintro rfl; exact h9 (by decide)
    have h81 : z ≠ 0x81 := by rintro rfl; exact h9 (by decide)
    show spaceLenRev (a :: z :: y) ≤ 1
    cases y with
    | nil => simp only [spaceLenRev, h2, false_and, if_false]; split <;> omega
    | cons w y => simp only [spaceLenRev, h2, h8, h9A, h81, false_and, and_false, or_false, if_false]; split <;> omega
  | [a, b] =>
    obtain ⟨h1, h2, h3, h4, h5, h6, h7, h8, h9, h10⟩ := plain_not_space z hz
    show spaceLenRev (a :: b :: z :: y) ≤ 2
    simp only [spaceLenRev, h3, h4, h5, false_and, or_false, if_false]
    split
    · omega
    · split <;> omega
  | a :: b :: c :: t => exact Nat.le_trans (spaceLenRev_le3 _) (by simp)

theorem dropSpace_before {z : UInt8} (hz : plain z = true) (y : Bytes) (n : Nat) : ∀ x : Bytes, ∃ x', dropSpace spaceLenRev n (x ++ z :: y) = x' ++ z :: y := by
  induction n with
  | zero => intro x; exact ⟨x, rfl⟩
  | succ n ih =>
    intro x
    rw [dropSpace]
    split
    · exact ⟨x, rfl⟩
    · rw [List.drop_append_of_le_length (spaceLenRev_before hz x y)]
      exact ih _

/-- `TrimSpace` keeps everything from the first plain byte to the last. -/
theorem trimSpace_upto {u : Bytes} (hu : ∀ b ∈ u, asciiSpace b = true) {a z : UInt8} (ha : plain a = true) (hz : plain z = true) (t x : Bytes) :
    ∃ x', trimSpace (u ++ (a :: t ++ z :: x)) = a :: t ++ z :: x' := by
  have h1 : dropSpace spaceLen (u ++ (a :: t ++ z :: x)).length (u ++ (a :: t ++ z :: x)) = a :: t ++ z :: x :=
    dropSpace_spaces (fun b t h => spaceLen_space h t) u hu _ (by rw [List.cons_append]; exact spaceLen_plain ha _) _ (by simp)
  unfold trimSpace
  rw [h1]
  dsimp only
  have h2 : (a :: t ++ z :: x).reverse = x.reverse ++ z :: (a :: t).reverse := by simp
  rw [h2]
  obtain ⟨x', hx⟩ := dropSpace_before hz (a :: t).reverse (a :: t ++ z :: x).length x.reverse
  rw [hx]
  exact ⟨x'.reverse, by simp⟩

theorem split_concat {c : UInt8} (a b : Bytes) : split c (a ++ c :: b) = split c a ++ split c b := by
  induction a with
  | nil => simp [split]
  | cons x a ih =>
    rw [List.cons_append, split, split]
    split
    · rw [ih]; rfl
    · rw [ih]
      cases hs : split c a with
      | nil => exact absurd hs (split_ne_nil c a)
      | cons y ys => rfl

theorem split_front {c : UInt8} {a : Bytes} (ha : c ∉ a) (b : Bytes) : ∃ h t, split c (a ++ b) = (a ++ h) :: t := by
  induction a with
  | nil =>
    cases hs : split c b with
    | nil => exact absurd hs (split_ne_nil c b)
    | cons y ys => exact ⟨y, ys, hs⟩
  | cons x a ih =>
    obtain ⟨h, t, e⟩ := ih (fun h => ha (List.mem_cons_of_mem _ h))
    have hx : ¬ x = c := fun e => ha (by rw [e]; exact List.mem_cons_self)
    refine ⟨h, t, ?_⟩
    rw [List.cons_append, split, if_neg hx, e]
    rfl

theorem token_char : ∀ c : UInt8, c ∈ tokenChars → plain c = true ∧ c ≠ 61 ∧ c ≠ 44 ∧ c ≠ 34 ∧ c ≠ 92 ∧ c < 128 ∧ visible c = true ∧ lower1 c ≠ 32 ∧ lower1 c ≠ 9 := forall_u8 (by decide +kernel)
theorem blank_char {c : UInt8} (h : c = 32 ∨ c = 9) : asciiSpace c = true ∧ c ≠ 61 ∧ c ≠ 44 ∧ c ≠ 34 ∧ c ≠ 92 ∧ c < 128 ∧ lower1 c = c := by
  rcases h with rfl | rfl <;> decide

/-! ## Names -/

theorem digestAttr_known {d d' : Digest} {attr v : Bytes} (h : digestAttr d attr v = .ok d') : ∃ n : PName, attr = n.text := by
  by_cases h1 : attr = b!"realm"; · exact ⟨.realm, h1⟩
  by_cases h2 : attr = b!"domain"; · exact ⟨.domain, h2⟩
  by_cases h3 : attr = b!"nonce"; · exact ⟨.nonce, h3⟩
  by_cases h4 : attr = b!"opaque"; · exact ⟨.opaque_, h4⟩
  by_cases h5 : attr = b!"stale"; · exact ⟨.stale, h5⟩
  by_cases h6 : attr = b!"algorithm"; · exact ⟨.algorithm, h6⟩
  by_cases h7 : attr = b!"qop"; · exact ⟨.qop, h7⟩
  unfold digestAttr at h
  rw [if_neg h1, if_neg h2, if_neg h3, if_neg h4, if_neg h5, if_neg h6, if_neg h7] at h
  cases h

theorem head_known {d d' : Digest} {b w eb x : Bytes} (hb : ∀ c ∈ b, c = 32 ∨ c = 9) (hw0 : w ≠ []) (hw : ∀ c ∈ w, c ∈ tokenChars) (heb : ∀ c ∈ eb, c = 32 ∨ c = 9)
    (h : digestPart d (b ++ (w ++ eb ++ 61 :: x)) = .ok d') : (∃ n : PName, lowerAscii w = n.text) ∧ eb = [] := by
  have hne : (61 : UInt8) ∉ w ++ eb := by
    intro hm
    rcases List.mem_append.1 hm with hm | hm
    · exact (token_char _ (hw _ hm)).2.1 rfl
    · exact (blank_char (heb _ hm)).2.1 rfl
  have hasc : ∀ c ∈ w ++ eb, c < 128 := by
    intro c hm
    rcases List.mem_append.1 hm with hm | hm
    · exact (token_char _ (hw _ hm)).2.2.2.2.2.1
    · exact (blank_char (heb _ hm)).2.2.2.2.2.1
  obtain ⟨x', hx⟩ : ∃ x', trimSpace (b ++ (w ++ eb ++ 61 :: x)) = w ++ eb ++ 61 :: x' := by
    cases w with
    | nil => exact absurd rfl hw0
    | cons a t =>
      exact trimSpace_upto (u := b) (a := a) (z := 61) (t := t ++ eb) (x := x) (fun c hc => (blank_char (hb c hc)).1) (token_char _ (hw a (by simp))).1 (by decide)
  unfold digestPart at h
  rw [hx] at h
  dsimp only at h
  rw [cut_append x' hne] at h
  dsimp only at h
  rw [if_neg (by simp), if_pos (by
    have := List.length_pos_iff.2 hw0
    rw [List.length_append]; omega), toLower_ascii hasc] at h
  obtain ⟨n, hn⟩ := digestAttr_known h
  have hl : ∀ c ∈ eb, False := by
    intro c hc
    have hm : lower1 c ∈ n.text := by rw [← hn]; exact List.mem_map.2 ⟨c, List.mem_append_right _ hc, rfl⟩
    rw [(blank_char (heb c hc)).2.2.2.2.2.2] at hm
    have : ∀ n : PName, (32 : UInt8) ∉ n.text ∧ (9 : UInt8) ∉ n.text := by intro n; cases n <;> decide
    rcases heb c hc with rfl | rfl
    · exact (this n).1 hm
    · exact (this n).2 hm
  have he : eb = [] := by
    cases eb with
    | nil => rfl
    | cons c t => exact absurd (hl c (by simp)) id
  subst he
  rw [List.append_nil] at hn
  exact ⟨⟨n, hn⟩, rfl⟩

/-! ## Fields -/

/-- The field for a name. -/
def Spec.PName.field : PName → Digest → Bytes
  | .realm, d => d.realm
  | .domain, d => d.domain
  | .nonce, d => d.nonce
  | .opaque_, d => d.opaque_
  | .stale, d => d.stale
  | .algorithm, d => d.algorithm
  | .qop, d => d.qop

/-- Two of them are in lower case. -/
def Spec.PName.norm : PName → Bytes → Bytes
  | .algorithm, v => toLower v
  | .qop, v => toLower v
  | _, v => v

theorem field_set (n m : PName) (d : Digest) (v : Bytes) : n.field (setParam d m v) = if m = n then n.norm v else n.field d := by
  cases n <;> cases m <;> rfl

theorem field_fold (n : PName) (ps : List Param) : ∀ d, n.field (ps.foldl (fun d p => setParam d p.name p.value) d) = ((lastValue n ps).map n.norm).getD (n.field d) := by
  induction ps with
  | nil => intro d; rfl
  | cons p ps ih =>
    intro d
    rw [List.foldl_cons, ih, field_set, lastValue]
    cases lastValue n ps with
    | some v => rfl
    | none =>
      show (if p.name = n then n.norm p.value else n.field d) = _
      split <;> rfl

theorem toLower_comma (s : Bytes) : (44 : UInt8) ∈ toLower s → (44 : UInt8) ∈ s := by
  have l1 : ∀ c : UInt8, lower1 c = 44 → c = 44 := forall_u8 (by decide +kernel)
  fun_induction toLower s with
  | case1 => exact id
  | case2 c => intro h; rw [List.mem_singleton] at h ⊢; exact (l1 c h.symm).symm
  | case3 c d h => intro h; exact absurd (List.mem_singleton.1 h) (by decide)
  | case4 c d h =>
    intro h
    rcases List.mem_cons.1 h with h | h
    · rw [l1 c h.symm]; exact List.mem_cons_self
    · rw [List.mem_singleton] at h; rw [l1 d h.symm]; simp
  | case5 c d e t h ih =>
    intro hm
    rcases List.mem_cons.1 hm with hm | hm
    · exact absurd hm (by decide)
    · exact List.mem_cons_of_mem _ (List.mem_cons_of_mem _ (ih hm))
  | case6 c d e t h1 h2 ih =>
    intro hm
    rcases List.mem_cons.1 hm with hm | hm
    · exact absurd hm (by decide)
    · exact List.mem_cons_of_mem _ (List.mem_cons_of_mem _ (List.mem_cons_of_mem _ (ih hm)))
  | case7 c d e t h1 h2 ih =>
    intro hm
    rcases List.mem_cons.1 hm with hm | hm
    · rw [l1 c hm.symm]; exact List.mem_cons_self
    · exact List.mem_cons_of_mem _ (ih hm)

theorem part_noComma {d d' : Digest} {p : Bytes} (h : digestPart d p = .ok d') (hp : (44 : UInt8) ∉ p) (hd : ∀ n : PName, (44 : UInt8) ∉ n.field d) :
    ∀ n : PName, (44 : UInt8) ∉ n.field d' := by
  unfold digestPart at h
  dsimp only at h
  split at h
  · injection h with h; subst h; exact hd
  · split at h
    · next key val hc =>
      split at h
      · have hv : (44 : UInt8) ∉ trimQuotes val := by
          intro hm
          have h1 := trimQuotes_mem _ _ hm
          have h2 := (cut_some hc).1
          exact hp (trimSpace_mem (by rw [h2]; exact List.mem_append_right _ (List.mem_cons_of_mem _ h1)))
        obtain ⟨m, hm⟩ := digestAttr_known h
        rw [hm, digestAttr_name d m _ hv] at h
        injection h with h; subst h
        intro n
        rw [field_set]
        split
        · intro hx
          apply hv
          cases n <;> first | exact hx | exact toLower_comma _ hx
        · exact hd n
      · injection h with h; subst h; exact hd
    · injection h with h; subst h; exact hd

theorem parts_noComma (ps : List Bytes) : ∀ {d d' : Digest}, digestParts d ps = .ok d' → (∀ p ∈ ps, (44 : UInt8) ∉ p) → (∀ n : PName, (44 : UInt8) ∉ n.field d) →
    ∀ n : PName, (44 : UInt8) ∉ n.field d' := by
  induction ps with
  | nil => intro d d' h _ hd; injection h with h; subst h; exact hd
  | cons p ps ih =>
    intro d d' h hp hd
    rw [digestParts] at h
    split at h
    · next e he => exact ih h (fun q hq => hp q (by simp [hq])) (part_noComma he (hp p (by simp)) hd)
    · cases h

/-! ## Values -/

theorem trimQuotes_middle {a y : UInt8} (ha : a ≠ 34) (hy : y ≠ 34) (B : Bytes) (k : Nat) : trimQuotes (a :: B ++ [y] ++ List.replicate k 34) = a :: B ++ [y] := by
  unfold trimQuotes
  rw [List.append_assoc, List.cons_append, List.dropWhile_cons, if_neg (by simp [ha])]
  have hr : (a :: (B ++ ([y] ++ List.replicate k 34))).reverse = List.replicate k 34 ++ y :: (a :: B).reverse := by simp
  rw [hr]
  have hd : ∀ k, (List.replicate k (34 : UInt8) ++ y :: (a :: B).reverse).dropWhile (fun x => decide (x = 34)) = y :: (a :: B).reverse := by
    intro k
    induction k with
    | zero => rw [List.replicate_zero, List.nil_append, List.dropWhile_cons, if_neg (by simp [hy])]
    | succ k ih => rw [List.replicate_succ, List.cons_append, List.dropWhile_cons, if_pos (by simp), ih]
  rw [hd]
  simp

theorem trimQuotes_single {a : UInt8} (ha : a ≠ 34) (k : Nat) : trimQuotes (a :: List.replicate k 34) = [a] := by
  unfold trimQuotes
  rw [List.dropWhile_cons, if_neg (by simp [ha])]
  have hd : ∀ k, (List.replicate k (34 : UInt8) ++ [a]).dropWhile (fun x => decide (x = 34)) = [a] := by
    intro k
    induction k with
    | zero => rw [List.replicate_zero, List.nil_append, List.dropWhile_cons, if_neg (by simp [ha])]
    | succ k ih => rw [List.replicate_succ, List.cons_append, List.dropWhile_cons, if_pos (by simp), ih]
  rw [List.reverse_cons, List.reverse_replicate, hd]
  rfl

theorem trimQuotes_first (t : Bytes) : trimQuotes (34 :: t) = trimQuotes t := by
  unfold trimQuotes
  rw [List.dropWhile_cons, if_pos (by simp)]

theorem escape_id {v : Bytes} (h1 : (34 : UInt8) ∉ v) (h2 : (92 : UInt8) ∉ v) : escapeQuoted v = v := by
  unfold escapeQuoted
  induction v with
  | nil => rfl
  | cons c v ih =>
    rw [List.flatMap_cons, ih (fun h => h1 (List.mem_cons_of_mem _ h)) (fun h => h2 (List.mem_cons_of_mem _ h)), if_neg]
    · rfl
    · rintro (rfl | rfl)
      · exact h1 List.mem_cons_self
      · exact h2 List.mem_cons_self

theorem escape_length (v : Bytes) : v.length ≤ (escapeQuoted v).length ∧ ((escapeQuoted v).length = v.length → (34 : UInt8) ∉ v ∧ (92 : UInt8) ∉ v) := by
  unfold escapeQuoted
  induction v with
  | nil => simp
  | cons c v ih =>
    rw [List.flatMap_cons, List.length_append, List.length_cons]
    split
    · rw [show ([92, c] : Bytes).length = 2 from rfl]
      exact ⟨by omega, fun h => by omega⟩
    · next hc =>
      rw [show ([c] : Bytes).length = 1 from rfl]
      refine ⟨by omega, fun h => ?_⟩
      obtain ⟨h1, h2⟩ := ih.2 (by omega)
      constructor
      · intro hm
        rcases List.mem_cons.1 hm with e | hm
        · exact hc (.inl e.symm)
        · exact h1 hm
      · intro hm
        rcases List.mem_cons.1 hm with e | hm
        · exact hc (.inr e.symm)
        · exact h2 hm

theorem escape_head {v : Bytes} {c : UInt8} {t : Bytes} (h : escapeQuoted v = c :: t) : c ≠ 34 := by
  cases v with
  | nil => cases h
  | cons a v =>
    unfold escapeQuoted at h
    rw [List.flatMap_cons] at h
    split at h
    · injection h with h _; rw [← h]; decide
    · next ha => injection h with h _; rw [← h]; exact fun e => ha (.inl e)

/-- A quoted text after white space, as the code reads it, is the text only if there is no white space and nothing was escaped. -/
theorem trimQuotes_escape {e v : Bytes} (he : ∀ c ∈ e, c = 32 ∨ c = 9) : trimQuotes (e ++ ([34] ++ escapeQuoted v ++ [34])) = v ↔ e = [] ∧ (34 : UInt8) ∉ v ∧ (92 : UInt8) ∉ v := by
  constructor
  · intro h
    rcases List.eq_nil_or_concat v with rfl | ⟨u, z, rfl⟩
    · refine ⟨?_, by simp, by simp⟩
      cases e with
      | nil => rfl
      | cons a t =>
        exfalso
        have ha : a ≠ 34 := (blank_char (he a (by simp))).2.2.2.1
        rcases List.eq_nil_or_concat t with rfl | ⟨s, y, rfl⟩
        · rw [show [a] ++ ([34] ++ escapeQuoted [] ++ [34]) = a :: List.replicate 2 34 from rfl, trimQuotes_single ha] at h; cases h
        · have hy : y ≠ 34 := (blank_char (he y (by simp))).2.2.2.1
          rw [show a :: (s.concat y) ++ ([34] ++ escapeQuoted [] ++ [34]) = a :: s ++ [y] ++ List.replicate 2 34 by simp [escapeQuoted, List.replicate], trimQuotes_middle ha hy] at h
          cases h
    · rw [List.concat_eq_append] at h ⊢
      -- the last character without the quotes behind it
      obtain ⟨tl, y, k, htl, hy, hlen, hz⟩ : ∃ (tl : Bytes) (y : UInt8) (k : Nat), escapeQuoted [z] ++ [34] = tl ++ [y] ++ List.replicate k 34 ∧ y ≠ 34 ∧
          (tl.length = 0 → y = z → z ≠ 34 ∧ z ≠ 92) ∧ (tl.length ≤ 1) := by
        by_cases h34 : z = 34
        · subst h34; exact ⟨[], 92, 2, rfl, by decide, fun _ h => absurd h (by decide), by decide⟩
        · by_cases h92 : z = 92
          · subst h92; exact ⟨[92], 92, 1, rfl, by decide, fun h => absurd h (by decide), by decide⟩
          · exact ⟨[], z, 1, by simp [escapeQuoted, h34, h92], h34, fun _ _ => ⟨h34, h92⟩, by decide⟩
      have hesc : escapeQuoted (u ++ [z]) ++ [34] = escapeQuoted u ++ tl ++ [y] ++ List.replicate k 34 := by
        rw [show escapeQuoted (u ++ [z]) = escapeQuoted u ++ escapeQuoted [z] by simp [escapeQuoted], List.append_assoc, htl]; simp
      have hlu := escape_length u
      cases e with
      | cons a t =>
        exfalso
        have ha : a ≠ 34 := (blank_char (he a (by simp))).2.2.2.1
        rw [show a :: t ++ ([34] ++ escapeQuoted (u ++ [z]) ++ [34]) = a :: (t ++ [34] ++ escapeQuoted u ++ tl) ++ [y] ++ List.replicate k 34 by
          rw [List.append_assoc [34], hesc]; simp, trimQuotes_middle ha hy] at h
        have := congrArg List.length h
        simp only [List.length_append, List.length_cons, List.length_nil] at this
        omega
      | nil =>
        refine ⟨rfl, ?_⟩
        rw [List.nil_append, List.append_assoc, List.singleton_append, trimQuotes_first, hesc] at h
        have hB : trimQuotes (escapeQuoted u ++ tl ++ [y] ++ List.replicate k 34) = escapeQuoted u ++ tl ++ [y] := by
          cases hx : escapeQuoted u ++ tl with
          | nil =>
            rw [List.nil_append]
            exact trimQuotes_single hy k
          | cons a t =>
            have ha : a ≠ 34 := by
              have : ∃ t', escapeQuoted (u ++ [z]) = a :: t' ∨ escapeQuoted (u ++ [z]) = [] := by
                rw [hx] at hesc
                cases hq : escapeQuoted (u ++ [z]) with
                | nil => exact ⟨[], .inr rfl⟩
                | cons b t' =>
                  rw [hq] at hesc
                  injection hesc with h1 _
                  exact ⟨t', .inl (by rw [h1])⟩
              rcases this with ⟨t', h1 | h1⟩
              · exact escape_head h1
              · exfalso
                have := (escape_length (u ++ [z])).1
                rw [h1] at this
                simp at this
            exact trimQuotes_middle ha hy t k
        rw [hB] at h
        have hlen' := congrArg List.length h
        simp only [List.length_append, List.length_cons, List.length_nil] at hlen'
        have htl0 : tl.length = 0 := by omega
        have htl0' : tl = [] := List.eq_nil_of_length_eq_zero htl0
        subst htl0'
        obtain ⟨k1, k2⟩ := hlu.2 (by omega)
        rw [escape_id k1 k2, List.append_nil] at h
        have hyz : y = z := by
          have := List.append_cancel_left h
          injection this
        obtain ⟨z1, z2⟩ := hlen rfl hyz
        refine ⟨fun hm => ?_, fun hm => ?_⟩
        · rcases List.mem_append.1 hm with hm | hm
          · exact k1 hm
          · exact z1 (List.mem_singleton.1 hm).symm
        · rcases List.mem_append.1 hm with hm | hm
          · exact k2 hm
          · exact z2 (List.mem_singleton.1 hm).symm
  · rintro ⟨rfl, h1, h2⟩
    rw [escape_id h1 h2]
    exact trimQuotes_quoted h1

/-- What the code takes for the value of a parameter without a comma. -/
def readValue (p : AuthParam) : Bytes :=
  trimQuotes (p.eqAfter ++ (if p.quoted then [34] ++ escapeQuoted p.value ++ (if p.more = [] then [34] else []) else p.value))

theorem blanks {p : AuthParam} (h : p.WF) : (∀ c ∈ p.before, c = 32 ∨ c = 9) ∧ (∀ c ∈ p.after, c = 32 ∨ c = 9) ∧ (∀ c ∈ p.eqBefore, c = 32 ∨ c = 9) ∧ (∀ c ∈ p.eqAfter, c = 32 ∨ c = 9) :=
  ⟨fun c hc => h.space c (by simp [hc]), fun c hc => h.space c (by simp [hc]), fun c hc => h.space c (by simp [hc]), fun c hc => h.space c (by simp [hc])⟩

/-- A text that begins with a blank is no text in tokens. -/
theorem blank_tokens {n : PName} {e x v : Bytes} (he : ∀ c ∈ e, c = 32 ∨ c = 9) (hv : ∀ c ∈ v, c ∈ tokenChars) (hx : ∀ c ∈ x, c < 128)
    (h : toLower (trimQuotes (e ++ x)) = toLower v) : e = [] := by
  cases e with
  | nil => rfl
  | cons a t =>
    exfalso
    have ha := blank_char (he a (by simp))
    obtain ⟨s, hs⟩ : ∃ s, trimQuotes (a :: t ++ x) = a :: s := by
      unfold trimQuotes
      rw [List.cons_append, List.dropWhile_cons, if_neg (by simp [ha.2.2.2.1]), List.reverse_cons]
      generalize (t ++ x).reverse = y
      induction y with
      | nil => rw [List.nil_append, List.dropWhile_cons, if_neg (by simp [ha.2.2.2.1])]; exact ⟨[], rfl⟩
      | cons c y ih =>
        rw [List.cons_append, List.dropWhile_cons]
        split
        · exact ih
        · exact ⟨(c :: y).reverse, by simp⟩
    have hasc : ∀ c ∈ trimQuotes (a :: t ++ x), c < 128 := by
      intro c hc
      rcases List.mem_append.1 (trimQuotes_mem _ _ hc) with hc | hc
      · exact (blank_char (he c hc)).2.2.2.2.2.1
      · exact hx c hc
    rw [toLower_ascii hasc, toLower_ascii (fun c hc => (token_char c (hv c hc)).2.2.2.2.2.1), hs] at h
    cases v with
    | nil => cases h
    | cons b v =>
      injection h with h _
      rw [ha.2.2.2.2.2.2] at h
      obtain ⟨_, _, _, _, _, _, _, k1, k2⟩ := token_char b (hv b (by simp))
      rcases he a (by simp) with rfl | rfl
      · exact k1 h.symm
      · exact k2 h.symm

/-- The value read is the one sent exactly if there is no white space before it and nothing was escaped in it. -/
theorem readValue_iff {p : AuthParam} (h : p.WF) {n : PName} (hn : lowerAscii p.name = n.text) :
    n.norm (readValue p) = n.norm p.value ↔ p.eqAfter = [] ∧ (34 : UInt8) ∉ p.value ∧ (92 : UInt8) ∉ p.value := by
  obtain ⟨_, _, _, he⟩ := blanks h
  by_cases hl : n = .algorithm ∨ n = .qop
  · have htok : ∀ c ∈ p.value, c ∈ tokenChars := h.tokens (by rcases hl with rfl | rfl; exact .inr hn; exact .inl hn)
    have h34 : (34 : UInt8) ∉ p.value := fun hm => (token_char _ (htok _ hm)).2.2.2.1 rfl
    have h92 : (92 : UInt8) ∉ p.value := fun hm => (token_char _ (htok _ hm)).2.2.2.2.1 rfl
    have key : toLower (readValue p) = toLower p.value ↔ p.eqAfter = [] := by
      unfold readValue
      rw [escape_id h34 h92]
      constructor
      · intro hk
        refine blank_tokens (n := n) he htok ?_ hk
        intro c hc
        have hcv : ∀ c ∈ p.value, c < 128 := fun c hc => (token_char _ (htok _ hc)).2.2.2.2.2.1
        split at hc
        · rcases List.mem_append.1 hc with hc | hc
          · rcases List.mem_append.1 hc with hc | hc
            · rw [List.mem_singleton.1 hc]; decide
            · exact hcv c hc
          · split at hc
            · rw [List.mem_singleton.1 hc]; decide
            · cases hc
        · exact hcv c hc
      · intro e
        rw [e, List.nil_append]
        split
        · split
          · exact congrArg toLower (trimQuotes_quoted h34)
          · rw [List.append_nil]; exact congrArg toLower (trimQuotes_open h34)
        · exact congrArg toLower (trimQuotes_none h34)
    have : n.norm (readValue p) = n.norm p.value ↔ toLower (readValue p) = toLower p.value := by rcases hl with rfl | rfl <;> exact Iff.rfl
    rw [this, key]
    exact ⟨fun h => ⟨h, h34, h92⟩, fun h => h.1⟩
  · have hid : ∀ v, n.norm v = v := by
      intro v
      cases n <;> first | rfl | exact absurd (.inl rfl) hl | exact absurd (.inr rfl) hl
    have hmore : p.more = [] := Classical.byContradiction fun hm => by
      have := h.list hm
      rw [hn] at this
      cases n <;> first | exact hl (.inr rfl) | exact absurd this (by decide)
    rw [hid, hid]
    unfold readValue
    cases hq : p.quoted with
    | true =>
      rw [if_pos rfl, if_pos hmore]
      exact trimQuotes_escape he
    | false =>
      rw [if_neg (by simp)]
      obtain ⟨hv0, hv, _⟩ := h.token hq
      have h34 : (34 : UInt8) ∉ p.value := fun hm => (token_char _ (hv _ hm)).2.2.2.1 rfl
      have h92 : (92 : UInt8) ∉ p.value := fun hm => (token_char _ (hv _ hm)).2.2.2.2.1 rfl
      rw [trimQuotes_none (by
        intro hm
        rcases List.mem_append.1 hm with hm | hm
        · exact (blank_char (he _ hm)).2.2.2.1 rfl
        · exact h34 hm)]
      refine ⟨fun h => ⟨?_, h34, h92⟩, fun h => by rw [h.1]; rfl⟩
      exact List.append_cancel_right (show p.eqAfter ++ p.value = [] ++ p.value from h)

/-! ## One parameter -/

theorem commas_mem {v : Bytes} {ms : List Bytes} {c : UInt8} (h : c ∈ commas v ms) : c = 44 ∨ c ∈ v ∨ ∃ m ∈ ms, c ∈ m := by
  induction ms generalizing v with
  | nil => exact .inr (.inl h)
  | cons m ms ih =>
    rw [commas] at h
    rcases List.mem_append.1 h with h | h
    · exact .inr (.inl h)
    · rcases List.mem_cons.1 h with h | h
      · exact .inl h
      · rcases ih h with h | h | ⟨x, hx, h⟩
        · exact .inl h
        · exact .inr (.inr ⟨m, by simp, h⟩)
        · exact .inr (.inr ⟨x, by simp [hx], h⟩)

theorem escape_mem {v : Bytes} {c : UInt8} (h : c ∈ escapeQuoted v) : c = 92 ∨ c ∈ v := by
  unfold escapeQuoted at h
  obtain ⟨x, hx, h⟩ := List.mem_flatMap.1 h
  split at h
  · rcases List.mem_cons.1 h with h | h
    · exact .inl h
    · rw [List.mem_singleton.1 h]; exact .inr hx
  · rw [List.mem_singleton.1 h]; exact .inr hx

theorem last_plain (a : Bytes) {l : Bytes} (hl : l ≠ []) (h : ∀ c ∈ l, plain c = true) : ∃ u z, 61 :: (a ++ l) = u ++ [z] ∧ plain z = true := by
  refine ⟨61 :: (a ++ l.dropLast), l.getLast hl, ?_, h _ (List.getLast_mem hl)⟩
  rw [List.cons_append, List.append_assoc, List.dropLast_concat_getLast]

/-- The parts of the text of a parameter without a comma of a known name. -/
theorem param_parts (d : Digest) {p : AuthParam} (h : p.WF) {n : PName} (hn : lowerAscii p.name = n.text) (heb : p.eqBefore = []) (hc : (44 : UInt8) ∉ p.value) :
    digestParts d (split 44 p.text) = .ok (setParam d n (readValue p)) := by
  obtain ⟨hb, ha, _, he⟩ := blanks h
  have c1 : (44 : UInt8) ∉ p.before := fun hm => (blank_char (hb _ hm)).2.2.1 rfl
  have c2 : (44 : UInt8) ∉ p.after := fun hm => (blank_char (ha _ hm)).2.2.1 rfl
  have c3 : (44 : UInt8) ∉ p.eqAfter := fun hm => (blank_char (he _ hm)).2.2.1 rfl
  have c4 : (44 : UInt8) ∉ p.name := fun hm => (token_char _ (h.name.2 _ hm)).2.2.1 rfl
  have c5 : (44 : UInt8) ∉ escapeQuoted p.value := fun hm => by
    rcases escape_mem hm with e | hm
    · exact absurd e (by decide)
    · exact hc hm
  have hb' : ∀ c ∈ p.before, asciiSpace c = true := fun c hc => (blank_char (hb c hc)).1
  have ha' : ∀ c ∈ p.after, asciiSpace c = true := fun c hc => (blank_char (ha c hc)).1
  by_cases hm : p.more = []
  · have ht : p.text = p.before ++ (p.name ++ 61 :: (p.eqAfter ++ (if p.quoted then [34] ++ escapeQuoted p.value ++ (if p.more = [] then [34] else []) else p.value))) ++ p.after := by
      unfold AuthParam.text
      rw [heb, hm]
      simp [commas]
    have hx : (44 : UInt8) ∉ p.eqAfter ++ (if p.quoted then [34] ++ escapeQuoted p.value ++ (if p.more = [] then [34] else []) else p.value) := by
      rw [if_pos hm]
      intro hmem
      rcases List.mem_append.1 hmem with hmem | hmem
      · exact c3 hmem
      · split at hmem
        · rcases List.mem_append.1 hmem with hmem | hmem
          · rcases List.mem_append.1 hmem with hmem | hmem
            · exact absurd (List.mem_singleton.1 hmem) (by decide)
            · exact c5 hmem
          · exact absurd (List.mem_singleton.1 hmem) (by decide)
        · exact hc hmem
    have htc : (44 : UInt8) ∉ p.text := by
      rw [ht]
      simp only [List.mem_append, List.mem_cons, not_or] at hx ⊢
      exact ⟨⟨c1, c4, by decide, hx⟩, c2⟩
    rw [split_none htc, digestParts, ht]
    have := digestPart_core d (b := p.before) (a := p.after) hn hb' ha' (x := p.eqAfter ++ (if p.quoted then [34] ++ escapeQuoted p.value ++ (if p.more = [] then [34] else []) else p.value)) (v := readValue p) (by
      rw [if_pos hm]
      cases hq : p.quoted with
      | true => exact ⟨61 :: (p.eqAfter ++ ([34] ++ escapeQuoted p.value)), 34, by simp, by decide⟩
      | false =>
        obtain ⟨hv0, hv, _⟩ := h.token hq
        exact last_plain p.eqAfter hv0 (fun c hc => (token_char c (hv c hc)).1)) rfl (fun hm => hx (trimQuotes_mem _ _ hm))
    rw [this]; rfl
  · have hqop := h.list hm
    have hq : p.quoted = true := Classical.byContradiction fun hq => hm (h.token (by simpa using hq)).2.2
    have htok := h.tokens (.inl hqop)
    have h34 : (34 : UInt8) ∉ p.value := fun hm => (token_char _ (htok _ hm)).2.2.2.1 rfl
    have h92 : (92 : UInt8) ∉ p.value := fun hm => (token_char _ (htok _ hm)).2.2.2.2.1 rfl
    have more_char : ∀ m ∈ p.more, ∀ c ∈ m, c ≠ 61 ∧ c ≠ 34 ∧ c ≠ 92 := by
      intro m hm c hc
      rcases h.more m hm c hc with hc | hc
      · have := token_char c hc; exact ⟨this.2.1, this.2.2.2.1, this.2.2.2.2.1⟩
      · have := blank_char hc; exact ⟨this.2.1, this.2.2.2.1, this.2.2.2.2.1⟩
    cases hmo : p.more with
    | nil => exact absurd hmo hm
    | cons m ms =>
      have hesc : escapeQuoted (commas p.value p.more) = commas p.value p.more := by
        refine escape_id ?_ ?_
        · intro hx
          rcases commas_mem hx with e | hx | ⟨x, hx, hy⟩
          · exact absurd e (by decide)
          · exact h34 hx
          · exact (more_char x hx _ hy).2.1 rfl
        · intro hx
          rcases commas_mem hx with e | hx | ⟨x, hx, hy⟩
          · exact absurd e (by decide)
          · exact h92 hx
          · exact (more_char x hx _ hy).2.2 rfl
      have ht : p.text = (p.before ++ (p.name ++ 61 :: (p.eqAfter ++ 34 :: p.value)) ++ []) ++ 44 :: (commas m ms ++ 34 :: p.after) := by
        unfold AuthParam.text
        rw [heb, if_pos hq, hesc, hmo]
        simp [commas]
      have hrest : (61 : UInt8) ∉ commas m ms ++ 34 :: p.after := by
        intro hx
        rcases List.mem_append.1 hx with hx | hx
        · rcases commas_mem hx with e | hx | ⟨x, hx, hy⟩
          · exact absurd e (by decide)
          · exact (more_char m (by rw [hmo]; simp) _ hx).1 rfl
          · exact (more_char x (by rw [hmo]; simp [hx]) _ hy).1 rfl
        · rcases List.mem_cons.1 hx with hx | hx
          · exact absurd hx (by decide)
          · exact (blank_char (ha _ hx)).2.1 rfl
      have hhead : (44 : UInt8) ∉ p.before ++ (p.name ++ 61 :: (p.eqAfter ++ 34 :: p.value)) ++ [] := by
        simp only [List.mem_append, List.mem_cons, not_or, List.append_nil]
        exact ⟨c1, c4, by decide, c3, by decide, hc⟩
      rw [ht, split_append _ hhead, digestParts]
      have hrv : readValue p = trimQuotes (p.eqAfter ++ 34 :: p.value) := by
        unfold readValue
        rw [if_pos hq, if_neg hm, escape_id h34 h92]
        simp
      rw [hrv]
      rw [digestPart_core d (a := []) hn hb' (by simp) (x := p.eqAfter ++ 34 :: p.value) (v := trimQuotes (p.eqAfter ++ 34 :: p.value))
        (last_plain p.eqAfter (by simp) (fun c hc => by
          rcases List.mem_cons.1 hc with rfl | hc
          · decide
          · exact (token_char c (htok c hc)).1)) rfl (fun hm => by
          rcases List.mem_append.1 (trimQuotes_mem _ _ hm) with hm | hm
          · exact c3 hm
          · rcases List.mem_cons.1 hm with hm | hm
            · exact absurd hm (by decide)
            · exact hc hm)]
      exact digestParts_noEq _ _ (fun x hx hy => hrest (split_sub _ x hx _ hy))

/-! ## The challenge -/

theorem split_auth (ps : List AuthParam) (hne : ps ≠ []) : split 44 (authText ps) = ps.flatMap fun p => split 44 p.text := by
  fun_induction authText ps with
  | case1 => exact absurd rfl hne
  | case2 p => simp
  | case3 p ps h ih => rw [split_concat, ih (by simpa using h), List.flatMap_cons]

/-- The name a text stands for. -/
def nameOf (w : Bytes) : PName := ([PName.realm, .domain, .nonce, .opaque_, .stale, .algorithm, .qop].find? fun n => n.text = lowerAscii w).getD .realm

theorem nameOf_eq {w : Bytes} {n : PName} (h : lowerAscii w = n.text) : nameOf w = n := by
  unfold nameOf
  rw [h]
  cases n <;> decide

theorem text_inj {n m : PName} (h : n.text = m.text) : n = m := by
  cases n <;> cases m <;> first | rfl | exact absurd h (by decide)

/-- A parameter with a given value. -/
def asParam (f : AuthParam → Bytes) (p : AuthParam) : Param := { name := nameOf p.name, written := p.name, value := f p, quoted := p.quoted }

theorem parts_all (ps : List AuthParam) : ∀ (d : Digest), (∀ p ∈ ps, p.WF ∧ (∃ n : PName, lowerAscii p.name = n.text) ∧ p.eqBefore = [] ∧ (44 : UInt8) ∉ p.value) →
    digestParts d (ps.flatMap fun p => split 44 p.text) = .ok ((ps.map (asParam readValue)).foldl (fun d p => setParam d p.name p.value) d) := by
  induction ps with
  | nil => intro d _; rfl
  | cons p ps ih =>
    intro d h
    obtain ⟨hw, ⟨n, hn⟩, he, hc⟩ := h p (by simp)
    rw [List.flatMap_cons, digestParts_append, param_parts d hw hn he hc]
    dsimp only
    rw [ih _ (fun q hq => h q (by simp [hq]))]
    rw [List.map_cons, List.foldl_cons]
    show _ = Except.ok (List.foldl _ (setParam d (nameOf p.name) (readValue p)) _)
    rw [nameOf_eq hn]

theorem last_unique (f : AuthParam → Bytes) (n : PName) (ps : List AuthParam) (hd : ps.Pairwise fun p q => lowerAscii p.name ≠ lowerAscii q.name)
    (hk : ∀ p ∈ ps, ∃ n : PName, lowerAscii p.name = n.text) : lastValue n (ps.map (asParam f)) = (ps.find? fun p => lowerAscii p.name = n.text).map f := by
  induction ps with
  | nil => rfl
  | cons p ps ih =>
    rw [List.pairwise_cons] at hd
    obtain ⟨m, hm⟩ := hk p (by simp)
    rw [List.map_cons, lastValue, ih hd.2 (fun q hq => hk q (by simp [hq])), List.find?_cons]
    show Option.or _ ((if nameOf p.name = n then some (f p) else none)) = _
    rw [nameOf_eq hm]
    by_cases hmn : m = n
    · subst hmn
      rw [if_pos rfl, show decide (lowerAscii p.name = m.text) = true by simpa using hm]
      have : ps.find? (fun q => decide (lowerAscii q.name = m.text)) = none := by
        rw [List.find?_eq_none]
        intro q hq
        simp only [decide_eq_true_eq]
        exact fun e => hd.1 q hq (hm.trans e.symm)
      rw [this]
      rfl
    · rw [if_neg hmn, show decide (lowerAscii p.name = n.text) = false by
        rw [decide_eq_false_iff_not, hm]; exact fun e => hmn (text_inj e)]
      cases (ps.find? fun q => decide (lowerAscii q.name = n.text)).map f <;> rfl

theorem text_trimmed (ps : List AuthParam) (hne : ps ≠ []) (h : ∀ p ∈ ps, p.WF) (hl : ∀ p, ps.getLast? = some p → p.after = []) :
    ∃ t z, authText ps = t ++ [z] ∧ plain z = true := by
  fun_induction authText ps with
  | case1 => exact absurd rfl hne
  | case2 p =>
    have ha := hl p rfl
    have hw := h p (by simp)
    unfold AuthParam.text
    rw [ha, List.append_nil]
    cases hq : p.quoted with
    | true => exact ⟨p.before ++ p.name ++ p.eqBefore ++ [61] ++ p.eqAfter ++ ([34] ++ escapeQuoted (commas p.value p.more)), 34, by simp, by decide⟩
    | false =>
      obtain ⟨hv0, hv, _⟩ := hw.token hq
      refine ⟨p.before ++ p.name ++ p.eqBefore ++ [61] ++ p.eqAfter ++ p.value.dropLast, p.value.getLast hv0, ?_, (token_char _ (hv _ (List.getLast_mem hv0))).1⟩
      rw [if_neg (by simp), List.append_assoc _ p.value.dropLast, List.dropLast_concat_getLast]
  | case3 p ps hps ih =>
    have hps : ps ≠ [] := by simpa using hps
    obtain ⟨t, z, e, hz⟩ := ih hps (fun q hq => h q (by simp [hq])) (fun q hq => hl q (by
      cases ps with
      | nil => exact absurd rfl hps
      | cons x xs => rw [List.getLast?_cons_cons]; exact hq))
    exact ⟨p.text ++ 44 :: t, z, by rw [e]; simp, hz⟩

theorem newDigest_auth (uri pre post : Bytes) (basic : Bool) (ps : List AuthParam) (hne : ps ≠ []) (h : ∀ p ∈ ps, p.WF) (hl : ∀ p, ps.getLast? = some p → p.after = [])
    (hpre : ∀ c ∈ pre, c = 32 ∨ c = 9) (hpost : ∀ c ∈ post, c = 32 ∨ c = 9) :
    newDigest uri (pre ++ ((if basic then b!"Basic " else b!"Digest ") ++ authText ps) ++ post) =
    match digestParts { uri := uri, algorithm := b!"md5", basic := basic } (ps.flatMap fun p => split 44 p.text) with
    | .error e => .error e
    | .ok d => if d.nonce ≠ [] then if d.algorithm ≠ b!"md5" ∧ d.algorithm ≠ b!"md5-sess" then .error .notImplemented else .ok d else .ok d := by
  obtain ⟨t, z, ht, hz⟩ := text_trimmed ps hne h hl
  have htr : Trimmed ((if basic then b!"Basic " else b!"Digest ") ++ authText ps) := by
    rw [ht]
    cases basic
    · exact .inr ⟨⟨68, _, rfl, by decide⟩, ⟨b!"Digest " ++ t, z, by simp, hz⟩⟩
    · exact .inr ⟨⟨66, _, rfl, by decide⟩, ⟨b!"Basic " ++ t, z, by simp, hz⟩⟩
  unfold newDigest
  rw [trimSpace_around pre post _ (fun c hc => (blank_char (hpre c hc)).1) (fun c hc => (blank_char (hpost c hc)).1) htr, ← split_auth ps hne]
  cases basic <;> rfl

/-- **C41**, exactly: a challenge of the grammar of RFC 2617, with parameters of any names and any values, each name once, is understood exactly if every
parameter has a name the code knows, no white space around the equals sign, and no comma, quote or backslash in its value. -/
theorem C41_iff (uri pre post : Bytes) (basic : Bool) (ps : List AuthParam) (hne : ps ≠ []) (h : ∀ p ∈ ps, p.WF) (hl : ∀ p, ps.getLast? = some p → p.after = [])
    (hd : ps.Pairwise fun p q => lowerAscii p.name ≠ lowerAscii q.name) (hpre : ∀ c ∈ pre, c = 32 ∨ c = 9) (hpost : ∀ c ∈ post, c = 32 ∨ c = 9)
    (halg : ((valueOf .algorithm ps).map toLower).getD b!"md5" ∈ [b!"md5", b!"md5-sess"]) :
    (∃ d, newDigest uri (pre ++ ((if basic then b!"Basic " else b!"Digest ") ++ authText ps) ++ post) = .ok d ∧ Understood uri basic ps d) ↔ ∀ p ∈ ps, p.Simple := by
  rw [newDigest_auth uri pre post basic ps hne h hl hpre hpost]
  have d0 : ∀ n : PName, (44 : UInt8) ∉ n.field { uri := uri, algorithm := b!"md5", basic := basic } := by
    intro n
    cases n <;> first | exact List.not_mem_nil | exact (by decide : (44 : UInt8) ∉ b!"md5")
  have fields : ∀ d : Digest, Understood uri basic ps d → ∀ n : PName, ∀ v, valueOf n ps = some v → n.field d = n.norm v := by
    intro d hu n v hv
    cases n
    · exact hu.realm.trans (by rw [hv]; rfl)
    · exact hu.domain.trans (by rw [hv]; rfl)
    · exact hu.nonce.trans (by rw [hv]; rfl)
    · exact hu.opaque_.trans (by rw [hv]; rfl)
    · exact hu.stale.trans (by rw [hv]; rfl)
    · exact hu.algorithm.trans (by rw [hv]; rfl)
    · exact hu.qop.trans (by rw [hv]; rfl)
  have value : ∀ p ∈ ps, ∀ n : PName, lowerAscii p.name = n.text → ps.find? (fun q => decide (lowerAscii q.name = n.text)) = some p := by
    intro p hp n hn
    clear h hl hne halg fields
    induction ps with
    | nil => cases hp
    | cons q ps ih =>
      rw [List.pairwise_cons] at hd
      rw [List.find?_cons]
      rcases List.mem_cons.1 hp with rfl | hp
      · rw [show decide (lowerAscii p.name = n.text) = true by simpa using hn]
      · rw [show decide (lowerAscii q.name = n.text) = false by
          rw [decide_eq_false_iff_not, ← hn]; exact hd.1 p hp]
        exact ih hd.2 hp
  constructor
  · rintro ⟨d, hr, hu⟩
    obtain ⟨hok⟩ : ∃ _ : Unit, digestParts { uri := uri, algorithm := b!"md5", basic := basic } (ps.flatMap fun p => split 44 p.text) = .ok d := by
      refine ⟨(), ?_⟩
      split at hr
      · cases hr
      · next d' hd' =>
        rw [hd']
        split at hr
        · split at hr
          · cases hr
          · exact hr
        · exact hr
    rename_i hok
    -- the names
    have names : ∀ p ∈ ps, (∃ n : PName, lowerAscii p.name = n.text) ∧ p.eqBefore = [] := by
      intro p hp
      have hw := h p hp
      obtain ⟨hb, _, heb, he⟩ := blanks hw
      have hfront : (44 : UInt8) ∉ p.before ++ (p.name ++ p.eqBefore ++ [61]) := by
        simp only [List.mem_append, List.mem_singleton, not_or]
        exact ⟨fun hm => (blank_char (hb _ hm)).2.2.1 rfl, ⟨fun hm => (token_char _ (hw.name.2 _ hm)).2.2.1 rfl, fun hm => (blank_char (heb _ hm)).2.2.1 rfl⟩, by decide⟩
      obtain ⟨x, t, ht⟩ := split_front hfront (p.eqAfter ++ (if p.quoted then [34] ++ escapeQuoted (commas p.value p.more) ++ [34] else p.value) ++ p.after)
      have hpt : p.text = p.before ++ (p.name ++ p.eqBefore ++ [61]) ++ (p.eqAfter ++ (if p.quoted then [34] ++ escapeQuoted (commas p.value p.more) ++ [34] else p.value) ++ p.after) := by
        unfold AuthParam.text; simp
      have hmem : p.before ++ (p.name ++ p.eqBefore ++ [61]) ++ x ∈ ps.flatMap fun p => split 44 p.text :=
        List.mem_flatMap.2 ⟨p, hp, by rw [hpt, ht]; simp⟩
      obtain ⟨e1, e2, hpart⟩ : ∃ e1 e2, digestPart e1 (p.before ++ (p.name ++ p.eqBefore ++ [61]) ++ x) = .ok e2 := by
        clear hr hu
        generalize (ps.flatMap fun p => split 44 p.text) = xs at hok hmem
        generalize ({ uri := uri, algorithm := b!"md5", basic := basic } : Digest) = d0' at hok
        induction xs generalizing d0' with
        | nil => cases hmem
        | cons y ys ih =>
          rw [digestParts] at hok
          cases hy : digestPart d0' y with
          | error e => rw [hy] at hok; cases hok
          | ok d1 =>
            rw [hy] at hok
            rcases List.mem_cons.1 hmem with e | hm
            · exact ⟨d0', d1, by rw [e]; exact hy⟩
            · exact ih hm d1 hok
      rw [show p.before ++ (p.name ++ p.eqBefore ++ [61]) ++ x = p.before ++ (p.name ++ p.eqBefore ++ 61 :: x) by simp] at hpart
      exact head_known hb hw.name.1 hw.name.2 heb hpart
    -- no commas
    have nocomma : ∀ p ∈ ps, (44 : UInt8) ∉ p.value := by
      intro p hp hm
      obtain ⟨⟨n, hn⟩, _⟩ := names p hp
      have hf := parts_noComma _ hok (fun x hx => by
        obtain ⟨q, _, hx⟩ := List.mem_flatMap.1 hx
        exact split_mem _ x hx) d0 n
      have hv : valueOf n ps = some p.value := by unfold valueOf; rw [value p hp n hn]; rfl
      rw [fields d hu n _ hv] at hf
      by_cases hq : n = .algorithm ∨ n = .qop
      · have htok := (h p hp).tokens (by rcases hq with rfl | rfl; exact .inr hn; exact .inl hn)
        exact (token_char _ (htok _ hm)).2.2.1 rfl
      · apply hf
        cases n <;> first | exact hm | exact absurd (.inl rfl) hq | exact absurd (.inr rfl) hq
    -- the values
    rw [parts_all ps _ (fun p hp => ⟨h p hp, (names p hp).1, (names p hp).2, nocomma p hp⟩)] at hok
    injection hok with hok
    intro p hp
    obtain ⟨⟨n, hn⟩, heb⟩ := names p hp
    have hf := field_fold n (ps.map (asParam readValue)) { uri := uri, algorithm := b!"md5", basic := basic }
    rw [hok, last_unique readValue n ps hd (fun q hq => (names q hq).1), value p hp n hn] at hf
    have hv : valueOf n ps = some p.value := by unfold valueOf; rw [value p hp n hn]; rfl
    rw [fields d hu n _ hv] at hf
    obtain ⟨k1, k2, k3⟩ := (readValue_iff (h p hp) hn).1 hf.symm
    exact ⟨⟨n, hn⟩, heb, k1, nocomma p hp, k2, k3⟩
  · intro hs
    rw [parts_all ps _ (fun p hp => ⟨h p hp, (hs p hp).1, (hs p hp).2.1, (hs p hp).2.2.2.1⟩)]
    dsimp only
    have hf : ∀ n : PName, n.field ((ps.map (asParam readValue)).foldl (fun d p => setParam d p.name p.value) { uri := uri, algorithm := b!"md5", basic := basic }) =
        ((valueOf n ps).map n.norm).getD (n.field { uri := uri, algorithm := b!"md5", basic := basic }) := by
      intro n
      rw [field_fold, last_unique readValue n ps hd (fun q hq => (hs q hq).1)]
      unfold valueOf
      cases hq : ps.find? (fun q => decide (lowerAscii q.name = n.text)) with
      | none => rfl
      | some p =>
        have hp := List.mem_of_find?_eq_some hq
        have hn : lowerAscii p.name = n.text := by have := List.find?_some hq; simpa using this
        obtain ⟨_, _, k1, _, k2, k3⟩ := hs p hp
        show n.norm (readValue p) = n.norm p.value
        exact (readValue_iff (h p hp) hn).2 ⟨k1, k2, k3⟩
    obtain ⟨_, _, _, _, _, _, _, hb, hu, _⟩ := foldl_setParam (ps.map (asParam readValue)) { uri := uri, algorithm := b!"md5", basic := basic }
    generalize (ps.map (asParam readValue)).foldl (fun d p => setParam d p.name p.value) { uri := uri, algorithm := b!"md5", basic := basic } = d at hf hb hu
    have halg' : d.algorithm = ((valueOf .algorithm ps).map toLower).getD b!"md5" := hf .algorithm
    have id_norm : ∀ o : Option Bytes, o.map (fun v => v) = o := by intro o; cases o <;> rfl
    refine ⟨d, ?_, hu, hb, ?_, ?_, ?_, ?_, ?_, halg', hf .qop⟩
    · have : ¬ (d.algorithm ≠ b!"md5" ∧ d.algorithm ≠ b!"md5-sess") := by
        rw [halg']
        rintro ⟨h1, h2⟩
        simp only [List.mem_cons, List.not_mem_nil, or_false] at halg
        rcases halg with h | h
        · exact h1 h
        · exact h2 h
      rw [if_neg this]
      split <;> rfl
    · exact (hf .realm).trans (by rw [show PName.realm.norm = fun v => v from rfl, id_norm]; rfl)
    · exact (hf .domain).trans (by rw [show PName.domain.norm = fun v => v from rfl, id_norm]; rfl)
    · exact (hf .nonce).trans (by rw [show PName.nonce.norm = fun v => v from rfl, id_norm]; rfl)
    · exact (hf .opaque_).trans (by rw [show PName.opaque_.norm = fun v => v from rfl, id_norm]; rfl)
    · exact (hf .stale).trans (by rw [show PName.stale.norm = fun v => v from rfl, id_norm]; rfl)

/-- A challenge with everything the grammar allows that the code can read. -/
def demoAuth : List AuthParam :=
  [{ name := b!"Realm", value := b!"a b = c", quoted := true, after := b!" " }, { name := b!"nonce", value := b!"n", quoted := false, before := b!" " },
   { name := b!"qop", value := b!"auth", more := [b!" auth-int"], quoted := true, before := [9] }, { name := b!"algorithm", value := b!"MD5-sess", quoted := true }]

example : authText demoAuth = b!"Realm=\"a b = c\" , nonce=n,\tqop=\"auth, auth-int\",algorithm=\"MD5-sess\"" := by decide

theorem demoAuth_wf : ∀ p ∈ demoAuth, p.WF := by
  intro p hp
  have chars : ∀ p ∈ demoAuth, (p.name ≠ [] ∧ ∀ c ∈ p.name, c ∈ tokenChars) ∧ (∀ c ∈ p.before ++ p.after ++ p.eqBefore ++ p.eqAfter, c = 32 ∨ c = 9) ∧
      (p.quoted = false → p.value ≠ [] ∧ (∀ c ∈ p.value, c ∈ tokenChars) ∧ p.more = []) ∧ (p.more ≠ [] → lowerAscii p.name = b!"qop") ∧
      (lowerAscii p.name = b!"qop" ∨ lowerAscii p.name = b!"algorithm" → ∀ c ∈ p.value, c ∈ tokenChars) ∧ (∀ m ∈ p.more, ∀ c ∈ m, c ∈ tokenChars ∨ c = 32 ∨ c = 9) := by decide +kernel
  obtain ⟨h1, h2, h3, h4, h5, h6⟩ := chars p hp
  exact ⟨h1, h2, h3, h4, h5, h6⟩

example : demoAuth ≠ [] ∧ (∀ p, demoAuth.getLast? = some p → p.after = []) ∧ (demoAuth.Pairwise fun p q => lowerAscii p.name ≠ lowerAscii q.name) ∧
    ((valueOf .algorithm demoAuth).map toLower).getD b!"md5" ∈ [b!"md5", b!"md5-sess"] ∧ ∀ p ∈ demoAuth, p.Simple := by
  refine ⟨by decide, by intro p hp; injection hp with hp; subst hp; rfl, by decide, by decide, ?_⟩
  intro p hp
  rcases List.mem_cons.1 hp with rfl | hp
  · exact ⟨⟨.realm, rfl⟩, by decide⟩
  · rcases List.mem_cons.1 hp with rfl | hp
    · exact ⟨⟨.nonce, rfl⟩, by decide⟩
    · rcases List.mem_cons.1 hp with rfl | hp
      · exact ⟨⟨.qop, rfl⟩, by decide⟩
      · rw [List.mem_singleton] at hp; subst hp; exact ⟨⟨.algorithm, rfl⟩, by decide⟩

/-- Parameters of the grammar the code does not read right. -/
example : ¬ AuthParam.Simple { name := b!"realm", value := b!"say \"x\"", quoted := true } ∧ ¬ AuthParam.Simple { name := b!"realm", value := b!"r", quoted := true, eqAfter := b!" " } := by
  refine ⟨fun h => ?_, fun h => ?_⟩
  · exact h.2.2.2.2.1 (by decide)
  · exact absurd h.2.2.1 (by decide)
example : (newDigest b!"/a" b!"Digest realm=\"say \\\"x\\\"\", nonce=n").map (·.realm) = .ok b!"say \\\"x\\" := by decide

end Ouro
