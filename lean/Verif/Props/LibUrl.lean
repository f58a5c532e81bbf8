import Verif.Lemmas.UrlText
import Verif.Lemmas.TransportField
import Verif.Props.Lib
/-!
# The models of `net/url` and `net.SplitHostPort` keep to their documentation
-/
namespace Ouro
open Spec

/-- `net.SplitHostPort` accepts exactly `host:port` and `[host]:port`. -/
theorem lib_splitHostPort (s : Bytes) : splitHostPortOk s = true ↔ HostPort s := by
  unfold splitHostPortOk
  constructor
  · intro h
    split at h
    · cases h
    · rename_i host port hc
      obtain ⟨rfl, hp⟩ := cutLast_some hc
      split at h
      · rename_i hd
        split at h
        · cases h
        · rename_i inner rest hcut
          rw [Bool.and_eq_true, Bool.and_eq_true, decide_eq_true_eq] at h
          obtain ⟨⟨rfl, h2⟩, h3⟩ := h
          obtain ⟨e, hin⟩ := cut_some hcut
          cases inner with
          | nil => exact absurd hd (by show some (93 : UInt8) ≠ some 91; decide)
          | cons c inner =>
            have hc : c = 91 := by injection hd
            subst hc
            have h2' : 91 ∉ inner ++ 93 :: 58 :: port := by
              simpa using h2
            have h3' : 93 ∉ port := by simpa using h3
            refine ⟨inner, port, hp, fun h => h2' (by simp [h]), h3', fun h => h2' (by simp [h]), fun h => hin (by simp [h]), .inr ?_⟩
            simp
      · rw [Bool.and_eq_true, Bool.and_eq_true] at h
        obtain ⟨⟨h1, h2⟩, h3⟩ := h
        have h1' : 58 ∉ host := by simpa using h1
        have h2' : 91 ∉ host ++ 58 :: port := by simpa using h2
        have h3' : 93 ∉ host ++ 58 :: port := by simpa using h3
        exact ⟨host, port, hp, fun h => h2' (by simp [h]), fun h => h3' (by simp [h]), fun h => h2' (by simp [h]), fun h => h3' (by simp [h]), .inl ⟨h1', rfl⟩⟩
  · rintro ⟨host, port, h1, h2, h3, h4, h5, ⟨h6, rfl⟩ | rfl⟩
    · rw [cutLast_append host h1]
      dsimp only
      rw [if_neg]
      · simp [h2, h3, h4, h5, h6]
      · cases host with
        | nil => show ¬ some (58 : UInt8) = some 91; decide
        | cons c host => intro e; injection e with e; subst e; exact h4 (by simp)
    · rw [show (91 :: host ++ 93 :: 58 :: port : Bytes) = (91 :: host ++ [93]) ++ 58 :: port by simp, cutLast_append _ h1]
      dsimp only
      rw [if_pos (by rfl), show ((91 :: host ++ [93]) ++ 58 :: port : Bytes) = (91 :: host) ++ 93 :: (58 :: port) by simp, cut_append _ (by simp [h5])]
      simp [h2, h3, h4]

/-- In a host only `%25` and the escapes of bytes that are not ASCII are accepted; in a zone also those of a space and of what need not be escaped. -/
theorem lib_escapeOk (m : UrlMode) (a b : UInt8) (x y : Nat) (ha : hexVal a = some x) (hb : hexVal b = some y) :
    escapeOk m a b x y = true ↔ (m = .host → x * 16 + y = 37 ∨ 128 ≤ x * 16 + y) ∧
      (m = .zone → x * 16 + y = 37 ∨ x * 16 + y = 32 ∨ shouldEscape .host (UInt8.ofNat (x * 16 + y)) = false) := by
  have two : ∀ c : UInt8, hexVal c = some 2 ↔ c = 50 := forall_u8 (by decide +kernel)
  have five : ∀ c : UInt8, hexVal c = some 5 ↔ c = 53 := forall_u8 (by decide +kernel)
  have hx := hexVal_lt a x ha
  have hy := hexVal_lt b y hb
  have h25 : (a = 50 ∧ b = 53) ↔ x * 16 + y = 37 := by
    rw [← two, ← five, ha, hb, Option.some.injEq, Option.some.injEq]; omega
  cases m <;> simp [escapeOk]
  · rw [h25]; omega
  · rw [h25, or_assoc]

private theorem pathPlain_byte : ∀ c : UInt8, c ∈ pathPlain → shouldEscape .path c = false ∧ isCtl c = false ∧ c ≠ 35 ∧ c ≠ 63 ∧ c ≠ 37 ∧ c ≠ 42 := forall_u8 (by decide +kernel)

private theorem plain_setPath {u : Url} {p : Bytes} (h : ∀ c ∈ p, c ∈ pathPlain) : u.setPath p = some { u with path := p, rawPath := [] } := by
  have e : urlEscape .path p = p := escape_plain (fun c hc => (pathPlain_byte c (h c hc)).1)
  have k := unescape_escape (m := .path) (.inl rfl) p
  rw [e] at k
  unfold Url.setPath
  rw [k, Option.map_some, e, if_pos rfl]

private theorem plain_path {u : Url} {p : Bytes} (h : ∀ c ∈ p, c ∈ pathPlain) (hp : u.path = p) (hr : u.rawPath = []) : u.escapedPath = p := by
  have e : urlEscape .path p = p := escape_plain (fun c hc => (pathPlain_byte c (h c hc)).1)
  unfold Url.escapedPath
  rw [if_neg (fun h => h.1 hr), if_neg, hp, e]
  rw [hp]; rintro rfl
  exact (pathPlain_byte 42 (h 42 (by simp))).2.2.2.2.2 rfl

private theorem plain_parse0 {s : Bytes} (h : ∀ c ∈ s, isCtl c = false ∧ c ≠ 35 ∧ c ≠ 63 ∧ c ≠ 42) {sc rest : Bytes} (hs : getScheme s = some (sc, rest)) (hr : 63 ∉ rest) :
    parseUrl s = parseRest { scheme := toLower sc } rest := by
  unfold parseUrl
  rw [cutAt_none (fun k => (h 35 k).2.1 rfl)]
  have : parseUrl0 s = parseRest { scheme := toLower sc } rest := by
    unfold parseUrl0
    rw [if_neg, if_neg, hs]
    · dsimp only
      rw [if_neg, cutAt_none hr]
      rintro ⟨e, _⟩
      exact hr (List.mem_of_getLast? e)
    · rintro rfl; exact (h 42 (by simp)).2.2.2 rfl
    · simp only [List.any_eq_true]
      rintro ⟨c, hc, e⟩
      rw [(h c hc).1] at e; cases e
  dsimp only
  rw [this]
  split
  · rename_i e; exact e.symm
  · rename_i e; rw [if_pos rfl]; exact e.symm

private theorem cutAt_first (s : Bytes) : (cutAt 47 s).1 = s.takeWhile (· ≠ 47) := by
  by_cases h : (47 : UInt8) ∈ s
  · obtain ⟨a, b, rfl, ha⟩ := cut_at h
    rw [cutAt_append b ha, (takeWhile_stop (p := (· ≠ 47)) (a := a) (b := 47 :: b) (fun c hc => by rw [decide_eq_true_eq]; rintro rfl; exact ha hc) (.inr ⟨47, b, rfl, by decide⟩)).1]
  · rw [cutAt_none h]
    have := (takeWhile_stop (p := (· ≠ 47)) (a := s) (b := []) (fun c hc => by rw [decide_eq_true_eq]; rintro rfl; exact h hc) (.inl rfl)).1
    rw [List.append_nil] at this
    exact this.symm

private theorem schemeLoop_slash : ∀ (s acc : Bytes), 58 ∉ s.takeWhile (· ≠ 47) → schemeLoop acc s = none
  | [], _, _ => rfl
  | c :: s, acc, h => by
    rw [schemeLoop]
    split
    · rename_i hc
      refine schemeLoop_slash s _ (fun k => h ?_)
      rw [List.takeWhile_cons, if_pos]
      · exact List.mem_cons_of_mem _ k
      · rw [decide_eq_true_eq]; rintro rfl; exact absurd hc (by decide)
    · split
      · rename_i hc
        subst hc
        exact absurd (by rw [List.takeWhile_cons, if_pos (by decide)]; exact List.mem_cons_self ..) h
      · rfl

private theorem getScheme_none {s : Bytes} (h : 58 ∉ s.takeWhile (· ≠ 47)) : getScheme s = some ([], s) := by
  cases s with
  | nil => rfl
  | cons c s =>
    have hc : c ≠ 58 := by
      rintro rfl
      exact absurd (by rw [List.takeWhile_cons, if_pos (by decide)]; exact List.mem_cons_self ..) h
    unfold getScheme
    dsimp only
    split
    · rename_i hl
      have : schemeLoop [c] s = none := schemeLoop_slash s [c] (fun k => h (by
        rw [List.takeWhile_cons, if_pos]
        · exact List.mem_cons_of_mem _ k
        · rw [decide_eq_true_eq]; rintro rfl; exact absurd hl (by decide)))
      rw [this]
    · first | rfl | rw [if_neg hc]

/-- A path by itself is a path: what has no scheme, does not begin with `//` and has no colon before its first slash. -/
theorem lib_relative (p : Bytes) (h : ∀ c ∈ p, c ∈ pathPlain) (h2 : ¬ b!"//" <+: p) (h3 : 58 ∉ p.takeWhile (· ≠ 47)) :
    parseUrl p = some { path := p } ∧ Url.text { path := p } = p := by
  have hb : ∀ c ∈ p, isCtl c = false ∧ c ≠ 35 ∧ c ≠ 63 ∧ c ≠ 42 := fun c hc => by
    obtain ⟨_, a, b, d, _, e⟩ := pathPlain_byte c (h c hc); exact ⟨a, b, d, e⟩
  constructor
  · rw [plain_parse0 hb (getScheme_none h3) (fun k => (hb 63 k).2.2.1 rfl)]
    unfold parseRest
    rw [if_neg (fun k => k.2 rfl), if_neg (fun k => h3 (by rw [← cutAt_first]; exact k.2)), if_neg (fun k => h2 k.2), if_neg (fun k => k rfl), plain_setPath h]
    rfl
  · have e : Url.escapedPath { path := p } = p := plain_path h rfl rfl
    unfold Url.text
    rw [if_neg (fun k => k rfl)]
    unfold Url.pathText
    rw [e, if_neg (fun k => k.2.2 rfl), if_neg (fun k => h3 (by rw [← cutAt_first]; exact k.2.2))]
    show ([] ++ ([] ++ [] ++ p)) ++ ([] : Bytes) = p
    simp

private theorem schemeLoop_bad : ∀ (t acc p : Bytes), 58 ∉ t → (∃ x ∈ t, ¬ (isAlnum x = true ∨ x ∈ b!"+-.")) → schemeLoop acc (t ++ 58 :: p) = none
  | [], _, _, _, ⟨_, h, _⟩ => by (cases h)
  | c :: t, acc, p, h1, ⟨x, hx, hb⟩ => by
    rw [List.cons_append, schemeLoop]
    split
    · rename_i hc
      refine schemeLoop_bad t _ p (fun k => h1 (List.mem_cons_of_mem _ k)) ⟨x, ?_, hb⟩
      rcases List.mem_cons.1 hx with rfl | hx
      · exact absurd hc hb
      · exact hx
    · rw [if_neg (fun e => h1 (by rw [e]; exact List.mem_cons_self ..))]

/-- A colon before the first slash ends a scheme; what stands before it must be one. -/
theorem lib_colon (a p : Bytes) (h : ∀ c ∈ a, c ∈ pathPlain ∧ c ≠ 47 ∧ c ≠ 58) (hp : ∀ c ∈ p, c ∈ pathPlain)
    (ha : ¬ ∃ c t, a = c :: t ∧ isLetter c = true ∧ ∀ x ∈ t, isAlnum x = true ∨ x ∈ b!"+-.") : parseUrl (a ++ 58 :: p) = none := by
  have hall : ∀ c ∈ a ++ 58 :: p, c ∈ pathPlain := by
    intro c hc
    rw [List.mem_append, List.mem_cons] at hc
    rcases hc with hc | rfl | hc
    · exact (h c hc).1
    · decide
    · exact hp c hc
  have hb : ∀ c ∈ a ++ 58 :: p, isCtl c = false ∧ c ≠ 35 ∧ c ≠ 63 ∧ c ≠ 42 := fun c hc => by
    obtain ⟨_, a, b, d, _, e⟩ := pathPlain_byte c (hall c hc); exact ⟨a, b, d, e⟩
  cases a with
  | nil =>
    unfold parseUrl
    rw [cutAt_none (fun k => (hb 35 k).2.1 rfl)]
    have : parseUrl0 ([] ++ 58 :: p) = none := by
      unfold parseUrl0
      rw [if_neg, if_neg]
      · rfl
      · intro e; exact absurd (List.cons.inj e).1 (by decide)
      · simp only [List.any_eq_true]
        rintro ⟨c, hc, e⟩
        rw [(hb c hc).1] at e; cases e
    dsimp only
    rw [this]
  | cons c t =>
    have hc := h c (List.mem_cons_self ..)
    have hg : getScheme ((c :: t) ++ 58 :: p) = some ([], (c :: t) ++ 58 :: p) := by
      show getScheme (c :: (t ++ 58 :: p)) = _
      unfold getScheme
      dsimp only
      split
      · rename_i hl
        rw [schemeLoop_bad t [c] p (fun k => (h 58 (List.mem_cons_of_mem _ k)).2.2 rfl)]
        · rfl
        · apply Classical.byContradiction
          intro k
          exact ha ⟨c, t, rfl, hl, fun x hx => Classical.byContradiction (fun kx => k ⟨x, hx, kx⟩)⟩
      · rw [if_neg hc.2.2]; rfl
    rw [plain_parse0 hb hg (fun k => (hb 63 k).2.2.1 rfl)]
    unfold parseRest
    rw [if_neg (fun k => k.2 rfl), if_pos]
    refine ⟨fun e => hc.2.1 (by injection e), ?_⟩
    rw [cutAt_first]
    have : ∀ t : Bytes, (∀ c ∈ t, c ≠ 47) → 58 ∈ (t ++ 58 :: p).takeWhile (· ≠ 47) := by
      intro t
      induction t with
      | nil => intro _; show 58 ∈ (58 :: p).takeWhile (· ≠ 47); rw [List.takeWhile_cons, if_pos (by decide)]; exact List.mem_cons_self ..
      | cons x t ih =>
        intro hx
        rw [List.cons_append, List.takeWhile_cons, if_pos (by rw [decide_eq_true_eq]; exact hx x (List.mem_cons_self ..))]
        exact List.mem_cons_of_mem _ (ih (fun c hc => hx c (List.mem_cons_of_mem _ hc)))
    exact this (c :: t) (fun x hx => (h x hx).2.1)

/-- A scheme with a rooted path and no host. -/
theorem lib_noHost (s p : Bytes) (hs : Scheme s) (h : ∀ c ∈ p, c ∈ pathPlain) (h2 : p.head? ≠ some 47) :
    parseUrl (s ++ 58 :: 47 :: p) = some { scheme := s, path := 47 :: p, omitHost := true } ∧
      Url.text { scheme := s, path := 47 :: p, omitHost := true } = s ++ 58 :: 47 :: p := by
  have hall : ∀ c ∈ (47 :: p), c ∈ pathPlain := by
    intro c hc
    rcases List.mem_cons.1 hc with rfl | hc
    · decide
    · exact h c hc
  have hss : ∀ c ∈ s, isCtl c = false ∧ c ≠ 35 ∧ c ≠ 63 ∧ c ≠ 42 := by
    have first : ∀ c : UInt8, 97 ≤ c ∧ c ≤ 122 → c ≠ 63 ∧ c ≠ 42 := forall_u8 (by decide +kernel)
    have more : ∀ c : UInt8, (97 ≤ c ∧ c ≤ 122) ∨ (48 ≤ c ∧ c ≤ 57) ∨ c = 43 ∨ c = 45 ∨ c = 46 → c ≠ 63 ∧ c ≠ 42 := forall_u8 (by decide +kernel)
    intro c hc
    obtain ⟨_, _, k1, k2⟩ := scheme_bytes hs c hc
    refine ⟨k1, k2, ?_⟩
    obtain ⟨c0, t, rfl, f1, f2⟩ := hs
    rcases List.mem_cons.1 hc with rfl | hc
    · exact first _ f1
    · exact more _ (f2 c hc)
  have hb : ∀ c ∈ s ++ 58 :: 47 :: p, isCtl c = false ∧ c ≠ 35 ∧ c ≠ 63 ∧ c ≠ 42 := by
    intro c hc
    rw [List.mem_append, List.mem_cons] at hc
    rcases hc with hc | rfl | hc
    · exact hss c hc
    · decide
    · obtain ⟨_, a, b, d, _, e⟩ := pathPlain_byte c (hall c hc); exact ⟨a, b, d, e⟩
  have h2' : ¬ b!"//" <+: 47 :: p := by
    rintro ⟨r, e⟩
    exact h2 (by rw [← (List.cons.inj e).2]; rfl)
  constructor
  · rw [plain_parse0 hb (getScheme_plain hs _) (fun k => (pathPlain_byte 63 (hall 63 k)).2.2.2.1 rfl), scheme_lower hs]
    unfold parseRest
    rw [if_neg (fun k => k.1 rfl), if_neg (fun k => k.1 rfl), if_neg (fun k => h2' k.2), if_pos (scheme_ne hs), plain_setPath hall]
  · have e : Url.escapedPath { scheme := s, path := 47 :: p, omitHost := true } = 47 :: p := plain_path hall rfl rfl
    have f : Url.front { scheme := s, path := 47 :: p, omitHost := true } = s ++ [58] := by
      unfold Url.front
      rw [if_pos (scheme_ne hs), if_neg (fun k => k.2 ⟨rfl, rfl, rfl⟩), List.append_nil]
    unfold Url.text
    rw [if_neg (fun k => k rfl)]
    unfold Url.pathText
    rw [e, f, if_neg (fun k => k.2.2 rfl), if_neg (fun k => absurd k.1 (by simp))]
    show (s ++ [58] ++ ([] ++ [] ++ 47 :: p)) ++ ([] : Bytes) = _
    simp

end Ouro
