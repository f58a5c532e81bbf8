import Verif.Model.AnnexB
import Verif.Spec.AnnexB
/-! # Lemmas about annexb.go -/
namespace Ouro
open Spec

theorem drop_cons3 {buf : Bytes} {off : Nat} (h : off + 2 < buf.length) :
    ∃ a b c, buf.drop off = a :: b :: c :: buf.drop (off + 3) ∧ buf[off]? = some a ∧ buf[off + 1]? = some b ∧
      buf[off + 2]? = some c := by
  refine ⟨buf[off], buf[off + 1], buf[off + 2], ?_, ?_, ?_, ?_⟩
  · rw [List.drop_eq_getElem_cons (show off < buf.length by omega),
      List.drop_eq_getElem_cons (show off + 1 < buf.length by omega),
      List.drop_eq_getElem_cons (show off + 2 < buf.length by omega)]
  all_goals exact List.getElem?_eq_getElem _

/-- Structural form of `EBSPToRaw`. -/
def rawOf : Bytes → Bytes
  | 0 :: 0 :: 3 :: rest => 0 :: 0 :: rawOf rest
  | b :: rest => b :: rawOf rest
  | [] => []

theorem rawOf_short {l : Bytes} (h : l.length ≤ 2) : rawOf l = l := by
  match l, h with
  | [], _ => simp [rawOf]
  | [a], _ => simp [rawOf]
  | [a, b], _ => simp [rawOf]

theorem ebspLoop_eq (buf : Bytes) (n : Nat) : ∀ (off : Nat) (acc : Bytes), buf.length - off ≤ n →
    ebspLoop buf off acc = .ok (acc ++ rawOf (buf.drop off)) := by
  induction n with
  | zero =>
    intro off acc h
    rw [ebspLoop, dif_neg (by omega), List.drop_eq_nil_of_le (by omega)]
    simp [rawOf]
  | succ n ih =>
    intro off acc h
    by_cases hlt : off < buf.length
    · rw [ebspLoop, dif_pos hlt]
      by_cases h3 : buf.length - off ≥ 3
      · obtain ⟨a, b, c, hd, ha, hb, hc⟩ := drop_cons3 (buf := buf) (off := off) (by omega)
        have hd1 : buf.drop (off + 1) = b :: c :: buf.drop (off + 3) := by
          have := congrArg List.tail hd
          simpa [List.tail_drop] using this
        simp only [testAt, idx, ha, hb, hc, decide_eq_true h3, andGo]
        by_cases hp : a = 0 ∧ b = 0 ∧ c = 3
        · obtain ⟨rfl, rfl, rfl⟩ := hp
          rw [hd]
          simp [rawOf, ih (off + 3) _ (by omega)]
        · have hr : rawOf (buf.drop off) = a :: rawOf (buf.drop (off + 1)) := by
            rw [hd, hd1, rawOf]
            rintro _ rfl hx
            simp only [List.cons.injEq] at hx
            exact absurd ⟨rfl, hx.1, hx.2.1⟩ hp
          rw [hr, ih (off + 1) _ (by omega)]
          cases h1 : a == 0 <;> cases h2 : b == 0 <;> cases h3 : c == 3 <;> simp_all
      · have ha : buf[off]? = some buf[off] := List.getElem?_eq_getElem hlt
        simp only [decide_eq_false h3, andGo, idx, ha]
        rw [ih (off + 1) _ (by omega), rawOf_short (l := buf.drop (off + 1)) (by simp; omega),
          rawOf_short (l := buf.drop off) (by simp; omega), List.drop_eq_getElem_cons hlt]
        simp
    · rw [ebspLoop, dif_neg (by omega), List.drop_eq_nil_of_le (by omega)]
      simp [rawOf]

theorem ebspToRaw_rawOf (buf : Bytes) : ebspToRaw buf = .ok (rawOf buf) := by
  have := ebspLoop_eq buf _ 0 [] (Nat.le_refl _)
  simpa [ebspToRaw] using this

theorem unescape_replicate (k : Nat) : ∀ (z : Nat) (l : Bytes),
    unescape z (List.replicate k 0 ++ l) = List.replicate k 0 ++ unescape (z + k) l := by
  induction k with
  | zero => intro z l; simp
  | succ k ih =>
    intro z l
    rw [List.replicate_succ, List.cons_append, unescape]
    rw [if_neg (by simp), if_pos rfl, ih]
    simp [Nat.add_comm, Nat.add_left_comm]

theorem unescape_ge2 {z : Nat} (h : 2 ≤ z) (l : Bytes) : unescape z l = unescape 2 l := by
  induction l generalizing z with
  | nil => simp [unescape]
  | cons b bs ih =>
    rw [unescape, unescape]
    by_cases hb : b = 3
    · simp [hb, h]
    · by_cases h0 : b = 0
      · simp [h0, ih (show 2 ≤ z + 1 by omega), ih (show 2 ≤ 2 + 1 by omega)]
      · simp [hb, h0]

theorem rawOf_eq (n : Nat) : ∀ l : Bytes, l.length ≤ n → rawOf l = unescape 0 l := by
  induction n with
  | zero => intro l h; have := List.length_eq_zero_iff.mp (by omega : l.length = 0); subst this; simp [rawOf, unescape]
  | succ n ih =>
    intro l h
    match l, h with
    | [], _ => simp [rawOf, unescape]
    | [a], _ => simp [rawOf, unescape]
    | [a, b], _ => simp [rawOf, unescape]; split <;> simp
    | a :: b :: c :: rest, h =>
      by_cases ha : a = 0
      · by_cases hb : b = 0
        · subst ha; subst hb
          by_cases hc : c = 3
          · subst hc
            simp at h
            rw [rawOf, ih rest (by omega)]
            simp [unescape]
          · rw [rawOf, ih _ (by simpa using h)]
            · by_cases hc0 : c = 0
              · subst hc0
                simp [unescape, unescape_ge2 (show 2 ≤ 3 by omega)]
              · simp [unescape, hc, hc0]
            · simp [hc]
        · rw [rawOf, ih _ (by simpa using h)]
          · subst ha; simp [unescape, hb]
          · simp [hb]
      · rw [rawOf, ih _ (by simpa using h)]
        · simp [unescape, ha]
        · simp [ha]

theorem ebspToRaw_eq (buf : Bytes) : ebspToRaw buf = .ok (unescape 0 buf) := by
  rw [ebspToRaw_rawOf, rawOf_eq _ buf (Nat.le_refl _)]

/-! ## Encapsulation -/

/-- Structural form of `RBSPToEncapsulated`; `none` is the index panic. -/
def encOf : Bytes → Option Bytes
  | [] => some []
  | [a] => some [a]
  | [a, b] => if a = 0 ∧ b = 0 then none else some [a, b]
  | a :: b :: c :: rest =>
    if a = 0 ∧ b = 0 ∧ c ≤ 3 then (encOf rest).map ([0, 0, 3, c] ++ ·)
    else (encOf (b :: c :: rest)).map (a :: ·)

/-- Go result of an optional value whose absence is an index panic. -/
def orIndex : Option Bytes → Go Bytes
  | some x => .ok x
  | none => .error .index

theorem rbspLoop_eq (buf : Bytes) (n : Nat) : ∀ (off : Nat) (acc : Bytes), buf.length - off ≤ n →
    rbspLoop buf off acc = orIndex ((encOf (buf.drop off)).map (acc ++ ·)) := by
  induction n with
  | zero =>
    intro off acc h
    rw [rbspLoop, dif_neg (by omega), List.drop_eq_nil_of_le (by omega)]
    simp [encOf, orIndex]
  | succ n ih =>
    intro off acc h
    by_cases hlt : off < buf.length
    · rw [rbspLoop, dif_pos hlt]
      by_cases h3 : buf.length - off ≥ 3
      · obtain ⟨a, b, c, hd, ha, hb, hc⟩ := drop_cons3 (buf := buf) (off := off) (by omega)
        have hd1 : buf.drop (off + 1) = b :: c :: buf.drop (off + 3) := by
          have := congrArg List.tail hd
          simpa [List.tail_drop] using this
        simp only [testAt, idx, ha, hb, hc, decide_eq_true (show buf.length - off ≥ 2 by omega), andGo]
        by_cases hp : a = 0 ∧ b = 0 ∧ c ≤ 3
        · have he : encOf (buf.drop off) = (encOf (buf.drop (off + 3))).map ([0, 0, 3, c] ++ ·) := by
            rw [hd, encOf, if_pos hp]
          obtain ⟨rfl, rfl, hc3⟩ := hp
          rw [he]
          simp only [BEq.rfl, decide_eq_true hc3]
          rw [ih (off + 2 + 1) _ (by omega)]
          simp [Option.map_map, Function.comp_def]
        · have he : encOf (buf.drop off) = (encOf (buf.drop (off + 1))).map (a :: ·) := by
            rw [hd, encOf, if_neg hp, ← hd1]
          rw [he, ih (off + 1) _ (by omega)]
          rw [Option.map_map]
          by_cases h1 : a = 0
          · by_cases h2 : b = 0
            · have h3 : ¬ c ≤ 3 := fun h3 => hp ⟨h1, h2, h3⟩
              simp [h1, h2, h3, Function.comp_def]
            · simp [h1, beq_eq_false_iff_ne.mpr h2, Function.comp_def]
          · simp [beq_eq_false_iff_ne.mpr h1, Function.comp_def]
      · have ha : buf[off]? = some buf[off] := List.getElem?_eq_getElem hlt
        by_cases h2 : buf.length - off ≥ 2
        · have hl1 : off + 1 < buf.length := by omega
          have hb : buf[off + 1]? = some buf[off + 1] := List.getElem?_eq_getElem hl1
          have hc : buf[off + 2]? = none := List.getElem?_eq_none (by omega)
          have hd : buf.drop off = [buf[off], buf[off + 1]] := by
            rw [List.drop_eq_getElem_cons hlt, List.drop_eq_getElem_cons hl1, List.drop_eq_nil_of_le (by omega)]
          have hd1 : buf.drop (off + 1) = [buf[off + 1]] := by
            rw [List.drop_eq_getElem_cons hl1, List.drop_eq_nil_of_le (by omega)]
          simp only [testAt, idx, ha, hb, hc, decide_eq_true h2, andGo]
          rw [hd, encOf, ih (off + 1) _ (by omega), hd1]
          cases h1 : buf[off] == 0 <;> cases h2 : buf[off + 1] == 0 <;> simp_all [encOf, orIndex]
        · have hd : buf.drop off = [buf[off]] := by
            rw [List.drop_eq_getElem_cons hlt, List.drop_eq_nil_of_le (by omega)]
          simp only [decide_eq_false h2, andGo, idx, ha]
          rw [hd, ih (off + 1) _ (by omega), List.drop_eq_nil_of_le (by omega)]
          simp [encOf, orIndex]
    · rw [rbspLoop, dif_neg (by omega), List.drop_eq_nil_of_le (by omega)]
      simp [encOf, orIndex]

theorem rbspToEncapsulated_eq (buf : Bytes) : rbspToEncapsulated buf = orIndex (encOf buf) := by
  have := rbspLoop_eq buf _ 0 [] (Nat.le_refl _)
  simpa [rbspToEncapsulated] using this

/-- Every byte string is a run of zeros, or a run of zeros, a non-zero byte and a rest. -/
theorem zeros_split (l : Bytes) : (∃ k, l = List.replicate k 0) ∨
    (∃ k b rest, b ≠ 0 ∧ l = List.replicate k 0 ++ b :: rest) := by
  induction l with
  | nil => exact .inl ⟨0, rfl⟩
  | cons a l ih =>
    by_cases ha : a = 0
    · subst ha
      rcases ih with ⟨k, rfl⟩ | ⟨k, b, rest, hb, rfl⟩
      · exact .inl ⟨k + 1, by rw [List.replicate_succ]⟩
      · exact .inr ⟨k + 1, b, rest, hb, by rw [List.replicate_succ, List.cons_append]⟩
    · exact .inr ⟨0, a, l, ha, by simp⟩

/-- Induction over that decomposition. -/
theorem runs_induction {P : Bytes → Prop} (h0 : ∀ k, P (List.replicate k 0))
    (h1 : ∀ k b rest, b ≠ 0 → P rest → P (List.replicate k 0 ++ b :: rest)) (l : Bytes) : P l := by
  have : ∀ n, ∀ l : Bytes, l.length ≤ n → P l := by
    intro n
    induction n with
    | zero =>
      intro l h
      have := List.length_eq_zero_iff.mp (by omega : l.length = 0); subst this
      exact h0 0
    | succ n ih =>
      intro l h
      rcases zeros_split l with ⟨k, rfl⟩ | ⟨k, b, rest, hb, rfl⟩
      · exact h0 k
      · exact h1 k b rest hb (ih rest (by simp at h; omega))
  exact this _ l (Nat.le_refl _)

theorem zeroRuns_replicate (k : Nat) : ∀ j l, zeroRuns j (List.replicate k 0 ++ l) = zeroRuns (j + k) l := by
  induction k with
  | zero => intro j l; simp
  | succ k ih =>
    intro j l
    rw [List.replicate_succ, List.cons_append, zeroRuns, if_pos rfl, ih]
    congr 1; omega

theorem zeroRuns_zeros (k : Nat) : zeroRuns 0 (List.replicate k 0) = [(k, none)] := by
  have := zeroRuns_replicate k 0 []
  simpa [zeroRuns] using this

theorem zeroRuns_block (k : Nat) (b : UInt8) (rest : Bytes) (hb : b ≠ 0) :
    zeroRuns 0 (List.replicate k 0 ++ b :: rest) = (k, some b) :: zeroRuns 0 rest := by
  rw [zeroRuns_replicate, zeroRuns, if_neg hb]; simp

/-- `q` escaped triples of zeros. -/
def triples : Nat → Bytes
  | 0 => []
  | q + 1 => [0, 0, 3, 0] ++ triples q

/-- What `RBSPToEncapsulated` writes for the last `r < 3` zeros of a run ended by `b`. -/
def blockTail (r : Nat) (b : UInt8) : Bytes :=
  if r = 0 then [b] else if r = 1 then [0, b] else if b ≤ 3 then [0, 0, 3, b] else [0, 0, b]

theorem encOf_triples (q : Nat) (l : Bytes) :
    encOf (List.replicate (3 * q) 0 ++ l) = (encOf l).map (triples q ++ ·) := by
  induction q with
  | zero => simp [triples]
  | succ q ih =>
    rw [show 3 * (q + 1) = (3 * q) + 1 + 1 + 1 by omega]
    simp only [List.replicate_succ, List.cons_append]
    rw [encOf, if_pos (by decide), ih]
    simp [triples, Option.map_map, Function.comp_def]

theorem encOf_cons {b : UInt8} (hb : b ≠ 0) (rest : Bytes) : encOf (b :: rest) = (encOf rest).map (b :: ·) := by
  match rest with
  | [] => simp [encOf]
  | [c] => simp [encOf, hb]
  | c :: d :: rest => rw [encOf, if_neg (by simp [hb])]

theorem encOf_zero_cons {b : UInt8} (hb : b ≠ 0) (rest : Bytes) :
    encOf (0 :: b :: rest) = (encOf rest).map ([0, b] ++ ·) := by
  match rest with
  | [] => simp [encOf, hb]
  | c :: rest =>
    rw [encOf, if_neg (by simp [hb]), encOf_cons hb]
    simp [Option.map_map, Function.comp_def]

theorem encOf_zero2_cons {b : UInt8} (hb : b ≠ 0) (rest : Bytes) :
    encOf (0 :: 0 :: b :: rest) = (encOf rest).map (blockTail 2 b ++ ·) := by
  rw [encOf]
  by_cases h3 : b ≤ 3
  · rw [if_pos ⟨rfl, rfl, h3⟩]; simp [blockTail, h3]
  · rw [if_neg (by simp [h3]), encOf_zero_cons hb]
    simp [blockTail, h3, Option.map_map, Function.comp_def]

theorem replicate_three (k : Nat) (l : Bytes) :
    List.replicate k (0 : UInt8) ++ l = List.replicate (3 * (k / 3)) 0 ++ (List.replicate (k % 3) 0 ++ l) := by
  rw [← List.append_assoc, List.replicate_append_replicate, Nat.div_add_mod]

theorem encOf_block (k : Nat) (b : UInt8) (rest : Bytes) (hb : b ≠ 0) :
    encOf (List.replicate k 0 ++ b :: rest) = (encOf rest).map (triples (k / 3) ++ blockTail (k % 3) b ++ ·) := by
  rw [replicate_three, encOf_triples]
  have : k % 3 = 0 ∨ k % 3 = 1 ∨ k % 3 = 2 := by omega
  rcases this with h | h | h <;> rw [h]
  · simp [encOf_cons hb, blockTail, Option.map_map, Function.comp_def]
  · simp [List.replicate_succ, encOf_zero_cons hb, blockTail, Option.map_map, Function.comp_def]
  · simp [List.replicate_succ, encOf_zero2_cons hb, Option.map_map, Function.comp_def]

theorem encOf_zeros (k : Nat) : encOf (List.replicate k 0) =
    if k % 3 = 2 then none else some (triples (k / 3) ++ List.replicate (k % 3) 0) := by
  have h0 := replicate_three k []
  rw [List.append_nil, List.append_nil] at h0
  rw [h0, encOf_triples]
  have : k % 3 = 0 ∨ k % 3 = 1 ∨ k % 3 = 2 := by omega
  rcases this with h | h | h <;> rw [h] <;> simp [encOf, List.replicate_succ]

theorem encOf_none_iff (l : Bytes) : encOf l = none ↔ ∃ k, (k, none) ∈ zeroRuns 0 l ∧ k % 3 = 2 := by
  induction l using runs_induction with
  | h0 k => rw [encOf_zeros, zeroRuns_zeros]; simp
  | h1 k b rest hb ih => rw [encOf_block k b rest hb, zeroRuns_block k b rest hb]; simp [ih]

theorem unescape_triples (q : Nat) (l : Bytes) : unescape 0 (triples q ++ l) =
    if q = 0 then unescape 0 l else List.replicate (3 * q) 0 ++ unescape 1 l := by
  match q with
  | 0 => simp [triples]
  | q + 1 =>
    rw [if_neg (by omega)]
    have key : ∀ q z, z = 0 ∨ z = 1 → unescape z (triples (q + 1) ++ l) = List.replicate (3 * (q + 1)) 0 ++ unescape 1 l := by
      intro q
      induction q with
      | zero => intro z hz; rcases hz with rfl | rfl <;> simp [triples, unescape, List.replicate_succ]
      | succ q ih =>
        intro z hz
        rw [triples, List.append_assoc]
        have := ih 1 (.inr rfl)
        have e : 3 * (q + 1 + 1) = 3 * (q + 1) + 1 + 1 + 1 := by omega
        rw [e]
        rcases hz with rfl | rfl <;> simp [unescape, this, List.replicate_succ]
    exact key q 0 (.inl rfl)

/-- The block on which the round trip loses a byte. -/
def LossyRun (k : Nat) (b : UInt8) : Prop := b = 3 ∧ 4 ≤ k ∧ k % 3 = 1

theorem unescape_block (k : Nat) (b : UInt8) (hb : b ≠ 0) (y : Bytes) :
    (¬ LossyRun k b → unescape 0 (triples (k / 3) ++ blockTail (k % 3) b ++ y) =
      List.replicate k 0 ++ b :: unescape 0 y) ∧
    (LossyRun k b → unescape 0 (triples (k / 3) ++ blockTail (k % 3) b ++ y) =
      List.replicate k 0 ++ unescape 0 y) := by
  have hk : List.replicate k (0 : UInt8) = List.replicate (3 * (k / 3)) 0 ++ List.replicate (k % 3) 0 := by
    rw [List.replicate_append_replicate, Nat.div_add_mod]
  rw [List.append_assoc, unescape_triples, hk]
  unfold LossyRun
  have h3 : k % 3 = 0 ∨ k % 3 = 1 ∨ k % 3 = 2 := by omega
  by_cases hq : k / 3 = 0
  · rw [if_pos hq, hq]
    rcases h3 with h | h | h <;> rw [h]
    · exact ⟨fun _ => by simp [blockTail, unescape, hb], fun hc => by omega⟩
    · exact ⟨fun _ => by simp [blockTail, unescape, hb, List.replicate_succ], fun hc => by omega⟩
    · refine ⟨fun _ => ?_, fun hc => by omega⟩
      by_cases hb3 : b ≤ 3
      · simp [blockTail, unescape, hb, hb3, List.replicate_succ]
      · have : b ≠ 3 := by rintro rfl; exact hb3 (by decide)
        simp [blockTail, unescape, hb, hb3, this, List.replicate_succ]
  · rw [if_neg hq]
    have hk4 : 4 ≤ k ∨ k % 3 = 0 := by omega
    rcases h3 with h | h | h <;> rw [h]
    · exact ⟨fun _ => by simp [blockTail, unescape, hb], fun hc => by omega⟩
    · by_cases hb3 : b = 3
      · refine ⟨fun hc => absurd ⟨hb3, by omega, rfl⟩ hc, fun _ => ?_⟩
        simp [blockTail, unescape, hb3, List.replicate_succ]
      · exact ⟨fun _ => by simp [blockTail, unescape, hb3, hb, List.replicate_succ], fun hc => absurd hc.1 hb3⟩
    · refine ⟨fun _ => ?_, fun hc => by omega⟩
      by_cases hb3 : b ≤ 3
      · simp [blockTail, unescape, hb, hb3, List.replicate_succ]
      · have : b ≠ 3 := by rintro rfl; exact hb3 (by decide)
        simp [blockTail, unescape, hb, hb3, this, List.replicate_succ]

theorem unescape_tail (k : Nat) (h : k % 3 ≠ 2) :
    unescape 0 (triples (k / 3) ++ List.replicate (k % 3) 0) = List.replicate k 0 := by
  have hk : List.replicate k (0 : UInt8) = List.replicate (3 * (k / 3)) 0 ++ List.replicate (k % 3) 0 := by
    rw [List.replicate_append_replicate, Nat.div_add_mod]
  rw [unescape_triples, hk]
  have h3 : k % 3 = 0 ∨ k % 3 = 1 := by omega
  by_cases hq : k / 3 = 0
  · rw [if_pos hq, hq]; rcases h3 with h | h <;> rw [h] <;> simp [unescape]
  · rw [if_neg hq]; rcases h3 with h | h <;> rw [h] <;> simp [unescape]

theorem roundtrip (l : Bytes) : ∀ e, encOf l = some e →
    (unescape 0 e).length ≤ l.length ∧
    ((∃ k, (k, some 3) ∈ zeroRuns 0 l ∧ 4 ≤ k ∧ k % 3 = 1) → (unescape 0 e).length < l.length) ∧
    ((¬ ∃ k, (k, some 3) ∈ zeroRuns 0 l ∧ 4 ≤ k ∧ k % 3 = 1) → unescape 0 e = l) := by
  induction l using runs_induction with
  | h0 k =>
    intro e he
    rw [encOf_zeros] at he
    split at he
    · cases he
    · next h =>
      cases he
      rw [unescape_tail k h, zeroRuns_zeros]
      simp
  | h1 k b rest hb ih =>
    intro e he
    rw [encOf_block k b rest hb, Option.map_eq_some_iff] at he
    obtain ⟨e', he', rfl⟩ := he
    obtain ⟨i1, i2, i3⟩ := ih e' he'
    obtain ⟨u1, u2⟩ := unescape_block k b hb e'
    rw [zeroRuns_block k b rest hb]
    by_cases hl : LossyRun k b
    · rw [u2 hl]
      refine ⟨by simp; omega, fun _ => by simp; omega, fun hc => absurd ⟨k, ?_, hl.2⟩ hc⟩
      rw [hl.1]; simp
    · rw [u1 hl]
      have hiff : (∃ k', (k', some 3) ∈ (k, some b) :: zeroRuns 0 rest ∧ 4 ≤ k' ∧ k' % 3 = 1) ↔
          ∃ k', (k', some 3) ∈ zeroRuns 0 rest ∧ 4 ≤ k' ∧ k' % 3 = 1 := by
        constructor
        · rintro ⟨k', hm, hk⟩
          rw [List.mem_cons] at hm
          rcases hm with hm | hm
          · cases hm; exact absurd ⟨rfl, hk⟩ hl
          · exact ⟨k', hm, hk⟩
        · rintro ⟨k', hm, hk⟩
          exact ⟨k', List.mem_cons_of_mem _ hm, hk⟩
      rw [hiff]
      refine ⟨by simp; omega, fun hc => ?_, fun hc => by rw [i3 hc]⟩
      have := i2 hc
      simp; omega

/-! ## Forbidden patterns -/

/-- `HasForbidden` one byte at a time. -/
def forb : Bytes → Prop
  | a :: b :: c :: rest => (a = 0 ∧ b = 0 ∧ c ≤ 2) ∨ forb (b :: c :: rest)
  | _ => False

theorem hasForbidden_cons (a : UInt8) (l : Bytes) : HasForbidden (a :: l) ↔
    ([0, 0, 0] <+: a :: l ∨ [0, 0, 1] <+: a :: l ∨ [0, 0, 2] <+: a :: l) ∨ HasForbidden l := by
  unfold HasForbidden
  simp only [List.infix_cons_iff]
  grind

theorem u8_le2 (c : UInt8) : c ≤ 2 ↔ c = 0 ∨ c = 1 ∨ c = 2 := by
  constructor
  · intro h
    have hn : c.toNat ≤ 2 := by simpa [UInt8.le_iff_toNat_le] using h
    have : c.toNat = 0 ∨ c.toNat = 1 ∨ c.toNat = 2 := by omega
    rcases this with h | h | h
    · exact .inl (UInt8.toNat_inj.mp h)
    · exact .inr (.inl (UInt8.toNat_inj.mp h))
    · exact .inr (.inr (UInt8.toNat_inj.mp h))
  · rintro (rfl | rfl | rfl) <;> decide

theorem forb_iff (l : Bytes) : HasForbidden l ↔ forb l := by
  induction l with
  | nil => simp [HasForbidden, forb]
  | cons a l ih =>
    rw [hasForbidden_cons, ih]
    match l with
    | [] => simp [forb, List.cons_prefix_cons]
    | [b] => simp [forb, List.cons_prefix_cons]
    | b :: c :: rest =>
      simp only [forb, List.cons_prefix_cons, List.nil_prefix, and_true, u8_le2]
      grind

theorem forb_cons_nz {a : UInt8} (h : a ≠ 0) (l : Bytes) : forb (a :: l) ↔ forb l := by
  match l with
  | [] => simp [forb]
  | [b] => simp [forb]
  | b :: c :: rest => simp [forb, h]

theorem forb_0nz {b : UInt8} (h : b ≠ 0) (l : Bytes) : forb (0 :: b :: l) ↔ forb l := by
  match l with
  | [] => simp [forb]
  | c :: rest => simp only [forb, h, false_and, and_false, false_or]; exact forb_cons_nz h _

theorem forb_00nz {b : UInt8} (h : b ≠ 0) (l : Bytes) : forb (0 :: 0 :: b :: l) ↔ b ≤ 2 ∨ forb l := by
  rw [forb]; rw [forb_0nz h]; simp

theorem forb_triple (l : Bytes) : forb (0 :: 0 :: 3 :: l) ↔ forb l := by
  rw [forb_00nz (by decide)]; simp [show ¬ (3 : UInt8) ≤ 2 by decide]

theorem forb_cons_mono (a : UInt8) (l : Bytes) (h : forb l) : forb (a :: l) := by
  match l, h with
  | b :: c :: rest, h => exact .inr h

theorem forb_triples (q : Nat) (l : Bytes) : forb (triples (q + 1) ++ l) ↔ 1 ≤ q ∨ forb (0 :: l) := by
  induction q with
  | zero => simp only [triples, List.append_nil, List.cons_append, List.nil_append]; rw [forb_triple]; simp
  | succ q ih =>
    rw [triples, List.append_assoc]
    have : forb ([0, 0, 3, 0] ++ (triples (q + 1) ++ l)) := by
      simp only [List.cons_append, List.nil_append, triples]
      rw [forb_triple]
      exact .inl ⟨rfl, rfl, by decide⟩
    exact ⟨fun _ => .inl (by omega), fun _ => this⟩

theorem forb_append_nz {b : UInt8} (hb : b ≠ 0) (x y : Bytes) : forb (x ++ b :: y) ↔ forb (x ++ [b]) ∨ forb y := by
  induction x with
  | nil => simp [forb_cons_nz hb, forb]
  | cons a x ih =>
    match x, ih with
    | [], ih => by_cases ha : a = 0
                · subst ha; simp [forb_0nz hb, forb]
                · simp [forb_cons_nz ha, forb_cons_nz hb, forb]
    | [c], ih =>
      simp only [List.cons_append, List.nil_append] at ih ⊢
      rw [forb, ih]
      simp only [forb]
      grind
    | c :: d :: x, ih =>
      simp only [List.cons_append, List.nil_append] at ih ⊢
      rw [forb, ih, forb]
      grind

/-- A run that leaves a forbidden pattern. -/
def LeakyRun (k : Nat) (b : Option UInt8) : Prop := 5 ≤ k ∨ (k = 4 ∧ (b = some 1 ∨ b = some 2))

theorem u8_12 {b : UInt8} (hb : b ≠ 0) : b ≤ 2 ↔ b = 1 ∨ b = 2 := by rw [u8_le2]; simp [hb]

theorem forb_block (k : Nat) (b : UInt8) (hb : b ≠ 0) (y : Bytes) :
    forb (triples (k / 3) ++ blockTail (k % 3) b ++ y) ↔ LeakyRun k (some b) ∨ forb y := by
  have h3 : k % 3 = 0 ∨ k % 3 = 1 ∨ k % 3 = 2 := by omega
  unfold LeakyRun
  obtain ⟨q, hq⟩ : ∃ q, q = k / 3 := ⟨_, rfl⟩
  rw [List.append_assoc, ← hq]
  cases q with
  | zero =>
    have : ¬ (5 ≤ k ∨ (k = 4 ∧ (some b = some 1 ∨ some b = some 2))) := by omega
    simp only [triples, List.nil_append, this, false_or]
    rcases h3 with h | h | h <;> rw [h]
    · simp [blockTail, forb_cons_nz hb]
    · simp [blockTail, forb_0nz hb]
    · by_cases hb3 : b ≤ 3
      · simp only [blockTail, hb3, if_true, List.cons_append, List.nil_append]
        simp [forb_triple, forb_cons_nz hb]
      · simp only [blockTail, hb3, if_false, List.cons_append, List.nil_append]
        have h2 : ¬ b ≤ 2 := fun h => hb3 (UInt8.le_trans h (by decide))
        simp [forb_00nz hb, h2]
  | succ q =>
    rw [forb_triples]
    rcases h3 with h | h | h <;> rw [h]
    · simp only [blockTail, if_true, List.cons_append, List.nil_append, forb_0nz hb]
      have : (1 ≤ q) ↔ 5 ≤ k := by omega
      have h4 : k ≠ 4 := by omega
      simp [this, h4]
    · simp only [blockTail, Nat.one_ne_zero, if_false, if_true, List.cons_append, List.nil_append, forb_00nz hb,
        u8_12 hb, Option.some.injEq]
      by_cases h5 : 5 ≤ k
      · simp [h5, show 1 ≤ q by omega]
      · simp [show k = 4 by omega, show ¬ 1 ≤ q by omega]
    · have h5 : 5 ≤ k := by omega
      simp only [h5, true_or, iff_true]
      refine .inr ?_
      by_cases hb3 : b ≤ 3
      · simp only [blockTail, hb3, if_true, List.cons_append, List.nil_append]
        exact .inl ⟨rfl, rfl, by decide⟩
      · simp only [blockTail, hb3, if_false, List.cons_append, List.nil_append]
        exact .inl ⟨rfl, rfl, by decide⟩

theorem forb_tail (k : Nat) (h : k % 3 ≠ 2) :
    forb (triples (k / 3) ++ List.replicate (k % 3) 0) ↔ 5 ≤ k := by
  have h3 : k % 3 = 0 ∨ k % 3 = 1 := by omega
  obtain ⟨q, hq⟩ : ∃ q, q = k / 3 := ⟨_, rfl⟩
  rw [← hq]
  cases q with
  | zero =>
    have : ¬ 5 ≤ k := by omega
    rcases h3 with h | h <;> rw [h] <;> simp [triples, forb, this, List.replicate_succ]
  | succ q =>
    rw [forb_triples]
    rcases h3 with h | h <;> rw [h] <;> simp [forb, List.replicate_succ] <;> omega

theorem forb_enc (l : Bytes) : ∀ e, encOf l = some e →
    (forb e ↔ ∃ k b, (k, b) ∈ zeroRuns 0 l ∧ LeakyRun k b) := by
  induction l using runs_induction with
  | h0 k =>
    intro e he
    rw [encOf_zeros] at he
    split at he
    · cases he
    · next h =>
      cases he
      rw [forb_tail k h, zeroRuns_zeros]
      constructor
      · intro h5; exact ⟨k, none, by simp, .inl h5⟩
      · rintro ⟨k', b', hm, hl⟩
        rw [List.mem_singleton] at hm
        cases hm
        rcases hl with hl | ⟨_, hl | hl⟩
        · exact hl
        · cases hl
        · cases hl
  | h1 k b rest hb ih =>
    intro e he
    rw [encOf_block k b rest hb, Option.map_eq_some_iff] at he
    obtain ⟨e', he', rfl⟩ := he
    rw [forb_block k b hb, ih e' he', zeroRuns_block k b rest hb]
    constructor
    · rintro (h | ⟨k', b', hm, hl⟩)
      · exact ⟨k, some b, by simp, h⟩
      · exact ⟨k', b', List.mem_cons_of_mem _ hm, hl⟩
    · rintro ⟨k', b', hm, hl⟩
      rw [List.mem_cons] at hm
      rcases hm with hm | hm
      · cases hm; exact .inl hl
      · exact .inr ⟨k', b', hm, hl⟩

end Ouro

/-! ## Splitting -/
namespace Ouro
open Spec

theorem pieces_cons {a : UInt8} {l : Bytes} (h : ¬ ∃ b rest, a :: l = 0 :: 0 :: 1 :: b :: rest) (cur : Bytes) :
    pieces cur (a :: l) = pieces (cur ++ [a]) l := by
  rw [pieces]
  intro b rest h1 h2
  exact h ⟨b, rest, by rw [h1, h2]⟩

theorem pieces_start (cur : Bytes) (b : UInt8) (rest : Bytes) : pieces cur (0 :: 0 :: 1 :: b :: rest) =
    (if dropZero cur = [] then [] else [dropZero cur]) ++ pieces [] (b :: rest) := by rw [pieces]

theorem pieces_nil (cur : Bytes) : pieces cur [] = [cur] := by rw [pieces]

theorem pieces_short {l : Bytes} (h : l.length ≤ 3) (cur : Bytes) : pieces cur l = [cur ++ l] := by
  induction l generalizing cur with
  | nil => simp [pieces_nil]
  | cons a l ih =>
    rw [pieces_cons, ih (by simp at h; omega)]
    · simp
    · rintro ⟨b, rest, he⟩
      rw [he] at h; simp at h

theorem slice_ok {α : Type} {buf : List α} {lo hi : Nat} (h1 : lo ≤ hi) (h2 : hi ≤ buf.length) :
    slice buf lo hi = .ok ((buf.take hi).drop lo) := by rw [slice, if_pos ⟨h1, h2⟩]

theorem take_drop_snoc {buf : Bytes} {prev off : Nat} {a : UInt8} (hp : prev ≤ off) (ha : buf[off]? = some a) :
    (buf.take (off + 1)).drop prev = (buf.take off).drop prev ++ [a] := by
  have hlt : off < buf.length := (List.getElem?_eq_some_iff.mp ha).1
  rw [List.take_add_one, ha, Option.toList, List.drop_append_of_le_length (by simp; omega)]

theorem splitEmit_eq {buf : Bytes} {off prev : Nat} (units : List Bytes) (hp : prev ≤ off) (ho : off ≤ buf.length) :
    splitEmit buf off prev units = .ok (units ++
      (if dropZero ((buf.take off).drop prev) = [] then []
        else [dropZero ((buf.take off).drop prev)]).map (unescape 0)) := by
  unfold splitEmit
  by_cases h0 : off > 0
  · have hlt : off - 1 < buf.length := by omega
    have hb : buf[off - 1]? = some buf[off - 1] := List.getElem?_eq_getElem hlt
    simp only [decide_eq_true h0, andGo, testAt, idx, hb]
    by_cases hpo : prev = off
    · have hcur : (buf.take off).drop prev = [] := by
        rw [hpo]; exact List.drop_eq_nil_of_le (by simp; omega)
      rw [hcur]
      have hdz : dropZero [] = [] := rfl
      rw [hdz]
      cases hz : buf[off - 1] == 0 <;> simp [show ¬ off > prev + 1 by omega, show ¬ off > prev by omega]
    · have hsnoc : (buf.take off).drop prev = (buf.take (off - 1)).drop prev ++ [buf[off - 1]] := by
        have := take_drop_snoc (buf := buf) (prev := prev) (off := off - 1) (by omega) hb
        rwa [show off - 1 + 1 = off by omega] at this
      by_cases hz : buf[off - 1] = 0
      · have hdz : dropZero ((buf.take off).drop prev) = (buf.take (off - 1)).drop prev := by
          rw [hsnoc, dropZero, if_pos (by simp [hz])]; simp
        simp only [hz, BEq.rfl]
        rw [hdz]
        by_cases hp1 : off > prev + 1
        · have hne : (buf.take (off - 1)).drop prev ≠ [] := by
            intro hc
            have := congrArg List.length hc
            simp at this; omega
          rw [if_pos hp1, if_neg hne, slice_ok (by omega) (by omega), appendUnit]
          simp only [ebspToRaw_eq]
          simp
        · rw [if_neg hp1, if_pos (List.drop_eq_nil_of_le (by simp; omega))]; simp
      · have hdz : dropZero ((buf.take off).drop prev) = (buf.take off).drop prev := by
          rw [hsnoc, dropZero, if_neg (by simp [hz])]
        have hne : (buf.take off).drop prev ≠ [] := by rw [hsnoc]; simp
        simp only [beq_eq_false_iff_ne.mpr hz]
        rw [hdz, if_neg hne, if_pos (by omega), slice_ok (by omega) (by omega), appendUnit]
        simp only [ebspToRaw_eq]
        simp
  · have : off = 0 := by omega
    subst this
    simp [andGo, dropZero]

theorem splitLoop_eq (buf : Bytes) (n : Nat) : ∀ (off prev : Nat) (units : List Bytes), buf.length - off ≤ n →
    prev ≤ off → off ≤ buf.length →
    splitLoop buf off prev units =
      .ok (units ++ (pieces ((buf.take off).drop prev) (buf.drop off)).map (unescape 0)) := by
  induction n with
  | zero =>
    intro off prev units hn hp ho
    rw [splitLoop, dif_neg (by omega), sliceFrom, if_pos (by omega), appendUnit,
      pieces_short (by simp; omega)]
    simp only [ebspToRaw_eq, List.map_cons, List.map_nil]
    rw [← List.drop_append_of_le_length (by simp; omega), List.take_append_drop]
  | succ n ih =>
    intro off prev units hn hp ho
    rw [splitLoop]
    by_cases hlt : off + 3 < buf.length
    · rw [dif_pos hlt]
      obtain ⟨a, b, c, hd, ha, hb, hc⟩ := drop_cons3 (buf := buf) (off := off) (by omega)
      obtain ⟨d, hdd⟩ : ∃ d, buf.drop (off + 3) = d :: buf.drop (off + 3 + 1) :=
        ⟨_, List.drop_eq_getElem_cons hlt⟩
      have hd1 : buf.drop (off + 1) = b :: c :: buf.drop (off + 3) := by
        have := congrArg List.tail hd
        simpa [List.tail_drop] using this
      simp only [testAt, idx, ha, hb, hc, andGo]
      by_cases hc1 : c > 1
      · have hc0 : c ≠ 0 := by rintro rfl; exact absurd hc1 (by decide)
        have hc2 : c ≠ 1 := by rintro rfl; exact absurd hc1 (by decide)
        simp only [decide_eq_true hc1]
        rw [ih (off + 3) prev units (by omega) (by omega) (by omega), hd,
          pieces_cons (by rintro ⟨x, y, hx⟩; simp at hx; exact hc2 hx.2.2.1),
          pieces_cons (by rintro ⟨x, y, hx⟩; simp at hx; exact hc0 hx.2.1),
          pieces_cons (by rintro ⟨x, y, hx⟩; simp at hx; exact hc0 hx.1)]
        rw [take_drop_snoc (off := off + 2) (by omega) hc, take_drop_snoc (off := off + 1) (by omega) hb,
          take_drop_snoc hp ha]
      · simp only [decide_eq_false hc1]
        by_cases hs : c = 1 ∧ b = 0 ∧ a = 0
        · obtain ⟨rfl, rfl, rfl⟩ := hs
          simp only [BEq.rfl]
          rw [splitEmit_eq units hp ho]
          simp only
          rw [ih (off + 3) (off + 3) _ (by omega) (by omega) (by omega), hd, hdd, pieces_start]
          rw [show (buf.take (off + 3)).drop (off + 3) = [] from List.drop_eq_nil_of_le (by simp; omega)]
          simp only [List.map_append, List.append_assoc]
        · have hnext : pieces ((buf.take off).drop prev) (buf.drop off) =
              pieces ((buf.take (off + 1)).drop prev) (buf.drop (off + 1)) := by
            rw [take_drop_snoc hp ha, hd1, hd, pieces_cons]
            rintro ⟨x, y, hx⟩
            simp only [List.cons.injEq] at hx
            exact hs ⟨hx.2.2.1, hx.2.1, hx.1⟩
          rw [hnext, ← ih (off + 1) prev units (by omega) (by omega) (by omega)]
          by_cases h1 : c = 1
          · by_cases h2 : b = 0
            · have h3 : a ≠ 0 := fun h3 => hs ⟨h1, h2, h3⟩
              simp [h1, h2, beq_eq_false_iff_ne.mpr h3]
            · simp [h1, beq_eq_false_iff_ne.mpr h2]
          · simp [beq_eq_false_iff_ne.mpr h1]
    · rw [dif_neg hlt, sliceFrom, if_pos (by omega), appendUnit, pieces_short (by simp; omega)]
      simp only [ebspToRaw_eq, List.map_cons, List.map_nil]
      rw [← List.drop_append_of_le_length (by simp; omega), List.take_append_drop]

theorem splitAnnexB_eq (buf : Bytes) : splitAnnexB buf = .ok ((pieces [] buf).map (unescape 0)) := by
  have := splitLoop_eq buf _ 0 0 [] (Nat.le_refl _) (Nat.le_refl _) (Nat.zero_le _)
  simpa [splitAnnexB] using this

theorem pieces_ne_nil (n : Nat) : ∀ l cur : Bytes, l.length ≤ n → pieces cur l ≠ [] := by
  induction n with
  | zero =>
    intro l cur h
    have := List.length_eq_zero_iff.mp (by omega : l.length = 0); subst this
    simp [pieces_nil]
  | succ n ih =>
    intro l cur h
    match l, h with
    | [], _ => simp [pieces_nil]
    | a :: l, h =>
      by_cases hs : ∃ b rest, a :: l = 0 :: 0 :: 1 :: b :: rest
      · obtain ⟨b, rest, he⟩ := hs
        rw [he, pieces_start]
        rw [he] at h
        have := ih (b :: rest) [] (by simp at h ⊢; omega)
        simp [this]
      · rw [pieces_cons hs]
        exact ih l _ (by simpa using h)

theorem pieces_nonempty (n : Nat) : ∀ l cur : Bytes, l.length ≤ n → cur ++ l ≠ [] → ∀ p ∈ pieces cur l, p ≠ [] := by
  induction n with
  | zero =>
    intro l cur h hne
    have := List.length_eq_zero_iff.mp (by omega : l.length = 0); subst this
    simpa [pieces_nil] using hne
  | succ n ih =>
    intro l cur h hne
    match l, h, hne with
    | [], _, hne => simpa [pieces_nil] using hne
    | a :: l, h, hne =>
      by_cases hs : ∃ b rest, a :: l = 0 :: 0 :: 1 :: b :: rest
      · obtain ⟨b, rest, he⟩ := hs
        rw [he, pieces_start]
        rw [he] at h
        intro p hp
        rw [List.mem_append] at hp
        rcases hp with hp | hp
        · split at hp
          · simp at hp
          · next hd => rw [List.mem_singleton] at hp; rwa [hp]
        · exact ih (b :: rest) [] (by simp at h ⊢; omega) (by simp) p hp
      · rw [pieces_cons hs]
        exact ih l _ (by simpa using h) (by simp)

theorem unescape_sublist (l : Bytes) : ∀ z, (unescape z l).Sublist l := by
  induction l with
  | nil => intro z; simp [unescape]
  | cons b l ih =>
    intro z
    rw [unescape]
    split
    · exact (ih 0).trans (List.sublist_cons_self _ _)
    · exact (ih _).cons₂ _

theorem unescape_ne_nil {l : Bytes} (h : l ≠ []) : unescape 0 l ≠ [] := by
  match l, h with
  | b :: l, _ => simp [unescape]

theorem dropZero_sublist (l : Bytes) : (dropZero l).Sublist l := by
  unfold dropZero; split
  · exact List.dropLast_sublist l
  · exact List.Sublist.refl _

theorem pieces_sublist (n : Nat) : ∀ l cur : Bytes, l.length ≤ n →
    ((pieces cur l).map (unescape 0)).flatten.Sublist (cur ++ l) := by
  induction n with
  | zero =>
    intro l cur h
    have := List.length_eq_zero_iff.mp (by omega : l.length = 0); subst this
    simpa [pieces_nil] using unescape_sublist cur 0
  | succ n ih =>
    intro l cur h
    match l, h with
    | [], _ => simpa [pieces_nil] using unescape_sublist cur 0
    | a :: l, h =>
      by_cases hs : ∃ b rest, a :: l = 0 :: 0 :: 1 :: b :: rest
      · obtain ⟨b, rest, he⟩ := hs
        rw [he, pieces_start, List.map_append, List.flatten_append]
        rw [he] at h
        have h1 := ih (b :: rest) [] (by simp at h ⊢; omega)
        have h2 : ((if dropZero cur = [] then [] else [dropZero cur]).map (unescape 0)).flatten.Sublist cur := by
          split
          · simp
          · simpa using (unescape_sublist _ 0).trans (dropZero_sublist cur)
        refine h2.append (h1.trans ?_)
        simp only [List.nil_append]
        exact ((List.sublist_cons_self _ _).trans (List.sublist_cons_self _ _)).trans (List.sublist_cons_self _ _)
      · rw [pieces_cons hs]
        simpa using ih l (cur ++ [a]) (by simpa using h)

theorem pieces_scan (u : Bytes) : ∀ (cur : Bytes) (b : UInt8) (rest : Bytes),
    (∀ s, s ≠ [] → s <:+ u → ¬ [0, 0, 1] <+: s ++ [0, 0, 1]) →
    pieces cur (u ++ 0 :: 0 :: 1 :: b :: rest) =
      (if dropZero (cur ++ u) = [] then [] else [dropZero (cur ++ u)]) ++ pieces [] (b :: rest) := by
  induction u with
  | nil => intro cur b rest _; simp only [List.nil_append, List.append_nil]; exact pieces_start _ _ _
  | cons a u ih =>
    intro cur b rest h
    rw [List.cons_append, pieces_cons, ih _ _ _ (fun s hs hsuf => h s hs (hsuf.trans (List.suffix_cons a u)))]
    · simp
    · rintro ⟨x, y, hx⟩
      apply h (a :: u) (by simp) (List.suffix_refl _)
      match u, hx with
      | [], hx => simp at hx
      | [c], hx => simp at hx
      | [c, d], hx => simp at hx; simp [hx]
      | c :: d :: e :: u, hx => simp at hx; simp [hx]

theorem pieces_last (u : Bytes) : ∀ cur, ¬ [0, 0, 1] <:+: u → pieces cur u = [cur ++ u] := by
  induction u with
  | nil => intro cur _; simp [pieces_nil]
  | cons a u ih =>
    intro cur h
    rw [pieces_cons, ih _ (fun hi => h (hi.trans (List.suffix_cons a u).isInfix))]
    · simp
    · rintro ⟨x, y, hx⟩
      apply h
      rw [hx]
      exact ⟨[], x :: y, by simp⟩

theorem frameable_noStart {u : Bytes} (h : Frameable u) (s : Bytes) (hs : s ≠ []) (hsuf : s <:+ u) :
    ¬ [0, 0, 1] <+: s ++ [0, 0, 1] ∧ ¬ [0, 0, 1] <+: s ++ [0, 0, 0, 1] := by
  obtain ⟨_, _, h1, h2⟩ := h
  have hlast : s.getLast? ≠ some 0 := by
    obtain ⟨t, rfl⟩ := hsuf
    rw [List.getLast?_append, List.getLast?_eq_some_getLast hs] at h2
    rw [List.getLast?_eq_some_getLast hs]; simpa using h2
  match s, hs with
  | [a], _ => simp at hlast; simp [List.cons_prefix_cons, Ne.symm hlast]
  | [a, b], _ =>
    simp at hlast; simp [List.cons_prefix_cons, Ne.symm hlast]
  | a :: b :: c :: s, _ =>
    have : ¬ [0, 0, 1] <+: a :: b :: c :: s := fun hp => h1 (hp.isInfix.trans hsuf.isInfix)
    simp [List.cons_prefix_cons] at this ⊢
    exact this

theorem pieces_stream (us : List (Bool × Bytes)) : ∀ u, Frameable u → (∀ v ∈ us, Frameable v.2) →
    pieces [] (u ++ byteStream us) = u :: us.map Prod.snd := by
  induction us with
  | nil => intro u hu _; simp [byteStream, pieces_last u [] hu.2.2.1]
  | cons v us ih =>
    intro u hu hus
    obtain ⟨long, w⟩ := v
    have hw := hus (long, w) (by simp)
    have ihw := ih w hw (fun v hv => hus v (by simp [hv]))
    obtain ⟨b, w', rfl⟩ : ∃ b w', w = b :: w' := by
      match w, hw.1 with
      | b :: w', _ => exact ⟨b, w', rfl⟩
    have hdz : dropZero u = u := by rw [dropZero, if_neg hu.2.2.2]
    have hbs : byteStream ((long, b :: w') :: us) =
        (if long then [0] else []) ++ 0 :: 0 :: 1 :: b :: (w' ++ byteStream us) := by
      cases long <;> simp [byteStream, frame]
    rw [hbs]
    cases long with
    | false =>
      simp only [Bool.false_eq_true, if_false, List.nil_append]
      rw [pieces_scan u [] b _ (fun s hs hsuf => (frameable_noStart hu s hs hsuf).1)]
      rw [List.nil_append, hdz, if_neg hu.1, ← List.cons_append, ihw]; simp
    | true =>
      rw [← List.append_assoc, if_pos rfl]
      rw [pieces_scan (u ++ [0]) [] b _ ?_]
      · have : dropZero (u ++ [0]) = u := by simp [dropZero]
        rw [List.nil_append, this, if_neg hu.1, ← List.cons_append, ihw]; simp
      · intro s hs hsuf
        rcases List.suffix_concat_iff.mp hsuf with rfl | ⟨t, rfl, ht⟩
        · exact absurd rfl hs
        · by_cases h0 : t = []
          · subst h0; simp [List.cons_prefix_cons]
          · have := (frameable_noStart hu t h0 ht).2
            simpa using this

theorem pieces_byteStream (us : List (Bool × Bytes)) (hne : us ≠ []) (h : ∀ u ∈ us, Frameable u.2) :
    pieces [] (byteStream us) = us.map Prod.snd := by
  match us, hne with
  | (long, w) :: us, _ =>
    have hw := h (long, w) (by simp)
    have ihw := pieces_stream us w hw (fun v hv => h v (by simp [hv]))
    obtain ⟨b, w', rfl⟩ : ∃ b w', w = b :: w' := by
      match w, hw.1 with
      | b :: w', _ => exact ⟨b, w', rfl⟩
    cases long with
    | false =>
      have : byteStream ((false, b :: w') :: us) = 0 :: 0 :: 1 :: b :: (w' ++ byteStream us) := by
        simp [byteStream, frame]
      rw [this, pieces_start, ← List.cons_append, ihw]; simp [dropZero]
    | true =>
      have : byteStream ((true, b :: w') :: us) = 0 :: 0 :: 0 :: 1 :: b :: (w' ++ byteStream us) := by
        simp [byteStream, frame]
      rw [this, pieces_cons (by simp), pieces_start, ← List.cons_append, ihw]; simp [dropZero]

end Ouro
