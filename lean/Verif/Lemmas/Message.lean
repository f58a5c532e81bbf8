import Verif.Lemmas.Bufio
import Verif.Lemmas.Digest
import Verif.Lemmas.Sdp
import Verif.Spec.Message
/-! # Lemmas about message.go -/
namespace Ouro
open Spec

/-! ## Header names -/

set_option maxRecDepth 100000 in
theorem case_facts : ∀ c : UInt8, lower1 (upper1 c) = lower1 c ∧ lower1 (lower1 c) = lower1 c ∧ upper1 (lower1 c) = upper1 c ∧
    isToken (upper1 c) = isToken c ∧ isToken (lower1 c) = isToken c ∧ (lower1 c = 45 ↔ c = 45) := forall_u8 (by decide)

theorem canonLoop_lower (up : Bool) (s : Bytes) : lowerAscii (canonLoop up s) = lowerAscii s := by
  induction s generalizing up with
  | nil => rfl
  | cons c t ih =>
    show (lower1 _) :: lowerAscii (canonLoop _ t) = lower1 c :: lowerAscii t
    rw [ih]
    cases up
    · rw [if_neg (by simp), (case_facts c).2.1]
    · rw [if_pos rfl, (case_facts c).1]

theorem canonLoop_of_lower (up : Bool) (s : Bytes) : canonLoop up (lowerAscii s) = canonLoop up s := by
  induction s generalizing up with
  | nil => rfl
  | cons c t ih =>
    show (if up then upper1 (lower1 c) else lower1 (lower1 c)) :: canonLoop (lower1 c = 45) (lowerAscii t) = _
    rw [ih, (case_facts c).2.1, (case_facts c).2.2.1]
    simp only [canonLoop, (case_facts c).2.2.2.2.2]

theorem canonLoop_token (up : Bool) (s : Bytes) : (canonLoop up s).all isToken = s.all isToken := by
  induction s generalizing up with
  | nil => rfl
  | cons c t ih =>
    simp only [canonLoop, List.all_cons, ih]
    cases up
    · rw [if_neg (by simp), (case_facts c).2.2.2.2.1]
    · rw [if_pos rfl, (case_facts c).2.2.2.1]

theorem canonKey_name {s : Bytes} (h : ∀ c ∈ s, isToken c = true) : canonKey s = canonLoop true s := by
  unfold canonKey; rw [if_pos (List.all_eq_true.2 h)]

/-- Names have the same canonical form exactly if they are the same in any letter case. -/
theorem canonKey_same {a b : Bytes} (ha : ∀ c ∈ a, isToken c = true) (hb : ∀ c ∈ b, isToken c = true) :
    canonKey a = canonKey b ↔ sameName a b := by
  rw [canonKey_name ha, canonKey_name hb]
  constructor
  · intro h
    have := congrArg lowerAscii h
    rwa [canonLoop_lower, canonLoop_lower] at this
  · intro h
    rw [← canonLoop_of_lower, ← canonLoop_of_lower true b]
    exact congrArg _ h

theorem canonKey_other {a b : Bytes} (ha : ¬ ∀ c ∈ a, isToken c = true) : canonKey a = canonKey b ↔ a = b := by
  have h1 : canonKey a = a := by unfold canonKey; rw [if_neg (fun h => ha (List.all_eq_true.1 h))]
  rw [h1]
  constructor
  · intro h
    by_cases hb : b.all isToken = true
    · have : a.all isToken = true := by
        rw [h]; unfold canonKey; rw [if_pos hb, canonLoop_token]; exact hb
      exact absurd (List.all_eq_true.1 this) ha
    · unfold canonKey at h; rw [if_neg hb] at h; exact h
  · intro h
    rw [← h, h1]

/-! ## Header maps -/

theorem at_set (h : Header) (k v key : Bytes) : (h.set k v).at key = if canonKey k = key then some v else h.at key := by
  unfold Header.at Header.set
  rw [List.find?_append]
  by_cases hk : canonKey k = key
  · rw [if_pos hk]
    have : (h.filter fun e => e.1 ≠ canonKey k).find? (fun e => e.1 = key) = none := by
      rw [List.find?_eq_none]
      intro e he
      rw [List.mem_filter] at he
      subst hk
      simpa using he.2
    rw [this]
    simp [hk]
  · rw [if_neg hk]
    have h2 : [(canonKey k, v)].find? (fun e => decide (e.1 = key)) = none := by simp [hk]
    rw [h2, Option.or_none]
    congr 1
    rw [List.find?_filter]
    congr 1
    funext e
    by_cases he : e.1 = key
    · simp [he, Ne.symm hk]
    · simp [he]

theorem at_del (h : Header) (k key : Bytes) : (h.del k).at key = if canonKey k = key then none else h.at key := by
  unfold Header.at Header.del
  by_cases hk : canonKey k = key
  · rw [if_pos hk]
    have : (h.filter fun e => e.1 ≠ canonKey k).find? (fun e => e.1 = key) = none := by
      rw [List.find?_eq_none]
      intro e he
      rw [List.mem_filter] at he
      subst hk
      simpa using he.2
    rw [this]; rfl
  · rw [if_neg hk]
    congr 1
    rw [List.find?_filter]
    congr 1
    funext e
    by_cases he : e.1 = key
    · simp [he, Ne.symm hk]
    · simp [he]

/-! ## Splitting at CR LF -/

theorem split2_none {a b : UInt8} {s : Bytes} (h : a ∉ s) : split2 a b s = [s] := by
  fun_induction split2 a b s with
  | case1 => rfl
  | case2 x => rfl
  | case3 x y t hc ih => exact absurd (by simp [hc.1]) h
  | case4 x y t hc ih1 ih2 => rw [ih2 (fun hm => h (by simp [hm]))] at ih1; cases ih1
  | case5 x y t hc z zs hs ih =>
    rw [ih (fun hm => h (by simp only [List.mem_cons] at *; rcases hm with hm | hm <;> simp [hm]))] at hs
    injection hs with h1 h2
    subst h1 h2; rfl

theorem split2_line {l : Bytes} (h : (13 : UInt8) ∉ l) (rest : Bytes) : split2 13 10 (l ++ 13 :: 10 :: rest) = l :: split2 13 10 rest := by
  induction l with
  | nil => show split2 13 10 (13 :: 10 :: rest) = _; rw [split2, if_pos ⟨rfl, rfl⟩]
  | cons c l ih =>
    have hc : c ≠ 13 := fun e => h (by simp [e])
    have ih := ih (fun hm => h (by simp [hm]))
    obtain ⟨y, t, hyt⟩ : ∃ y t, l ++ 13 :: 10 :: rest = y :: t := by cases l <;> exact ⟨_, _, rfl⟩
    rw [List.cons_append, hyt, split2, if_neg (fun e => hc e.1), ← hyt, ih]

/-! ## Reading a response -/

set_option maxRecDepth 100000 in
theorem token_plain : ∀ c : UInt8, isToken c = true → plain c = true ∧ c ≠ 58 ∧ c ≠ 10 := forall_u8 (by decide)

theorem isText_trimmed {v : Bytes} (h : IsText v) : Trimmed v := by
  cases v with
  | nil => exact .inl rfl
  | cons a t =>
    refine .inr ⟨⟨a, t, rfl, h.2.1 a rfl⟩, (a :: t).dropLast, (a :: t).getLast (by simp), (List.dropLast_concat_getLast (by simp)).symm, ?_⟩
    exact h.2.2 _ (List.getLast?_eq_some_getLast (by simp))

theorem name_trimmed {k : Bytes} (h : IsName k) : Trimmed k := by
  cases k with
  | nil => exact absurd rfl h.1
  | cons a t =>
    refine .inr ⟨⟨a, t, rfl, (token_plain _ (h.2 a (by simp))).1⟩, (a :: t).dropLast, (a :: t).getLast (by simp),
      (List.dropLast_concat_getLast (by simp)).symm, ?_⟩
    exact (token_plain _ (h.2 _ (List.getLast_mem _))).1

theorem header_line {h : SentHeader} (hw : h.WF) : ∃ line, h.text = line ++ [10] ∧ (10 : UInt8) ∉ line ∧
    trimSpace (line ++ [10]) ≠ [] ∧ ∃ k v, splitN2 58 (trimSpace (line ++ [10])) = [k, v] ∧ trimSpace k = h.name ∧ trimSpace v = h.value := by
  obtain ⟨name, blanks, value⟩ := h
  obtain ⟨hn, hb, hv⟩ := hw
  dsimp only at *
  have hb' : ∀ c ∈ blanks, asciiSpace c = true := by
    intro c hc
    rcases hb c hc with rfl | rfl <;> decide
  have hcolon : (58 : UInt8) ∉ name := fun hm => (token_plain _ (hn.2 _ hm)).2.1 rfl
  refine ⟨name ++ b!":" ++ blanks ++ value ++ [13], by simp [SentHeader.text], ?_, ?_⟩
  · intro hm
    simp only [List.mem_append, List.mem_singleton] at hm
    rcases hm with (((hm | hm) | hm) | hm) | hm
    · exact (token_plain _ (hn.2 _ hm)).2.2 rfl
    · exact absurd hm (by decide)
    · rcases hb _ hm with h | h <;> exact absurd h (by decide)
    · exact hv.1 hm
    · exact absurd hm (by decide)
  · obtain ⟨a, t, rfl⟩ : ∃ a t, name = a :: t := by
      cases name with
      | nil => exact absurd rfl hn.1
      | cons a t => exact ⟨a, t, rfl⟩
    have ha : plain a = true := (token_plain _ (hn.2 a (by simp))).1
    by_cases hval : value = []
    · subst hval
      have ht : trimSpace ((a :: t) ++ b!":" ++ blanks ++ [] ++ [13] ++ [10]) = (a :: t) ++ b!":" := by
        have := trimSpace_around [] (blanks ++ [13, 10]) ((a :: t) ++ b!":") (by simp)
          (by intro c hc
              rcases List.mem_append.1 hc with hc | hc
              · exact hb' c hc
              · simp only [List.mem_cons, List.not_mem_nil, or_false] at hc
                rcases hc with rfl | rfl <;> decide)
          (trimmed_of a (t ++ b!":") (a :: t) 58 rfl ha rfl (by decide))
        simpa using this
      rw [ht]
      refine ⟨by simp, a :: t, [], splitN2_append [] hcolon, trimSpace_id (name_trimmed hn), rfl⟩
    · obtain ⟨u, z, hz, hzm⟩ := exists_last hval
      have hzp : plain z = true := hv.2.2 z (by rw [hz]; simp)
      have ht : trimSpace ((a :: t) ++ b!":" ++ blanks ++ value ++ [13] ++ [10]) = (a :: t) ++ 58 :: (blanks ++ value) := by
        have := trimSpace_around [] [13, 10] ((a :: t) ++ 58 :: (blanks ++ value)) (by simp)
          (by intro c hc
              simp only [List.mem_cons, List.not_mem_nil, or_false] at hc
              rcases hc with rfl | rfl <;> decide)
          (trimmed_of a (t ++ 58 :: (blanks ++ value)) ((a :: t) ++ 58 :: (blanks ++ u)) z rfl ha (by rw [hz]; simp) hzp)
        simpa using this
      rw [ht]
      refine ⟨by simp, a :: t, blanks ++ value, splitN2_append _ hcolon, trimSpace_id (name_trimmed hn), ?_⟩
      have := trimSpace_around blanks [] value hb' (by simp) (isText_trimmed hv)
      simpa using this

/-- The header map after reading header lines. -/
def setAll (h : Header) (hs : List SentHeader) : Header := hs.foldl (fun h e => h.set e.name e.value) h

theorem evs_line {line : Bytes} {e : List Ev} : ((line ++ [10]).map Ev.byte ++ e) = (line ++ [10]).map Ev.byte ++ e := rfl

theorem headerLoop_ok (hs : List SentHeader) (hw : ∀ e ∈ hs, e.WF) : ∀ (n : Nat) (r : Rdr) (h : Header) (rest : List Ev),
    r.err = none → r.evs = (hs.flatMap SentHeader.text ++ [13, 10]).map .byte ++ rest → hs.length < n →
    ∃ r', headerLoop n r h = (.ok (setAll h hs), r') ∧ r'.err = none ∧ r'.evs = rest := by
  induction hs with
  | nil =>
    intro n r h rest he hr hn
    cases n with
    | zero => omega
    | succ n =>
      obtain ⟨r', h1, h2, h3⟩ := readLine_ok (l := [13]) he hr (by decide)
      refine ⟨r', ?_, h2, h3⟩
      simp only [headerLoop]
      rw [h1]
      dsimp only
      rw [if_pos (by decide)]
      rfl
  | cons e hs ih =>
    intro n r h rest he hr hn
    cases n with
    | zero => omega
    | succ n =>
      obtain ⟨line, hl1, hl2, hl3, k, v, hl4, hl5, hl6⟩ := header_line (hw e (by simp))
      obtain ⟨r', h1, h2, h3⟩ := readLine_ok (l := line) (rest := (hs.flatMap SentHeader.text ++ [13, 10]).map .byte ++ rest) he
        (by rw [hr, List.flatMap_cons, hl1]; simp) hl2
      simp only [headerLoop]
      rw [h1]
      dsimp only
      rw [if_neg hl3, hl4]
      dsimp only
      rw [hl5, hl6]
      exact ih (fun x hx => hw x (by simp [hx])) n r' _ rest h2 h3 (by simp at hn; omega)

theorem digits3 {n : Nat} (h1 : 100 ≤ n) (h2 : n ≤ 999) : (natDigits n).length = 3 := by
  rw [natDigits_eq, if_neg (by omega), natDigits_eq (n / 10), if_neg (by omega), natDigits_eq (n / 10 / 10), if_pos (by omega)]
  rfl

theorem statusLine_ok (proto : Bytes) (hp : (32 : UInt8) ∉ proto) (code : Nat) (reason : Bytes) (hc : 100 ≤ code ∧ code ≤ 999) (hr : IsText reason) :
    statusLine proto (proto ++ b!" " ++ natDigits code ++ b!" " ++ reason ++ [13] ++ [10]) =
      .ok (if reason = [] then natDigits code else natDigits code ++ b!" " ++ reason, code) := by
  have hd : (32 : UInt8) ∉ natDigits code := digits_not_mem code 32 (by decide)
  obtain ⟨a, t, hat⟩ : ∃ a t, natDigits code = a :: t := by
    cases h : natDigits code with
    | nil => exact absurd h (natDigits_ne_nil code)
    | cons a t => exact ⟨a, t, rfl⟩
  have ha : plain a = true := digit_plain a (natDigits_digit code a (by rw [hat]; simp))
  obtain ⟨u, z, hz, hzm⟩ := exists_last (natDigits_ne_nil code)
  have hzp : plain z = true := digit_plain z (natDigits_digit code z hzm)
  unfold statusLine
  rw [show proto ++ b!" " ++ natDigits code ++ b!" " ++ reason ++ [13] ++ [10] =
    proto ++ 32 :: (natDigits code ++ b!" " ++ reason ++ [13, 10]) by simp, cut_append _ hp]
  dsimp only
  rw [if_neg (by simp)]
  by_cases hre : reason = []
  · subst hre
    have ht : trimSpace (natDigits code ++ b!" " ++ [] ++ [13, 10]) = natDigits code := by
      have := trimSpace_around [] [32, 13, 10] (natDigits code) (by simp) (by decide) (trimmed_of a t u z hat ha hz hzp)
      simpa using this
    rw [ht, cut_none.2 hd]
    dsimp only
    rw [if_neg (by rw [digits3 hc.1 hc.2]; simp), atoi_natDigits code (by omega)]
    dsimp only
    rw [if_neg (by omega)]
    rfl
  · obtain ⟨u', z', hz', hzm'⟩ := exists_last hre
    have hzp' : plain z' = true := hr.2.2 z' (by rw [hz']; simp)
    have ht : trimSpace (natDigits code ++ b!" " ++ reason ++ [13, 10]) = natDigits code ++ 32 :: reason := by
      have := trimSpace_around [] [13, 10] (natDigits code ++ 32 :: reason) (by simp) (by decide)
        (trimmed_of a (t ++ 32 :: reason) (natDigits code ++ 32 :: u') z' (by rw [hat]; rfl) ha (by rw [hz']; simp) hzp')
      simpa using this
    rw [ht, cut_append _ hd]
    dsimp only
    rw [if_neg (by rw [digits3 hc.1 hc.2]; simp), atoi_natDigits code (by omega)]
    dsimp only
    rw [if_neg (by omega), if_neg hre]
    simp

theorem setAll_append (h : Header) (a b : List SentHeader) : setAll h (a ++ b) = setAll (setAll h a) b := by
  unfold setAll; rw [List.foldl_append]

theorem setAll_at_or (hs : List SentHeader) (hw : ∀ e ∈ hs, e.WF) {name : Bytes} (hn : ∀ c ∈ name, isToken c = true) : ∀ h : Header,
    (setAll h hs).at (canonKey name) =
      ((hs.reverse.find? fun h => sameName h.name name).map (·.value)).or (h.at (canonKey name)) := by
  induction hs with
  | nil => intro h; rfl
  | cons e hs ih =>
    intro h
    show (setAll (h.set e.name e.value) hs).at _ = _
    have he := hw e (by simp)
    rw [ih (fun x hx => hw x (by simp [hx])), at_set, List.reverse_cons, List.find?_append]
    cases hf : hs.reverse.find? fun h => sameName h.name name with
    | some x => simp
    | none =>
      by_cases hs' : sameName e.name name
      · rw [if_pos ((canonKey_same he.1.2 hn).2 hs')]
        simp [hs']
      · rw [if_neg (fun hc => hs' ((canonKey_same he.1.2 hn).1 hc))]
        simp [hs']

/-- The map read answers with the last value sent under a name. -/
theorem setAll_at (hs : List SentHeader) (hw : ∀ e ∈ hs, e.WF) {name : Bytes} (hn : ∀ c ∈ name, isToken c = true) :
    (setAll [] hs).at (canonKey name) = (hs.reverse.find? fun h => sameName h.name name).map (·.value) := by
  rw [setAll_at_or hs hw hn]
  show Option.or _ none = _
  simp

end Ouro
