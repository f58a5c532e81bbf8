import Verif.Lemmas.Url
/-! # The parts of a URI with an authority -/
namespace Ouro
open Spec

theorem schemeLoop_plain (t acc r : Bytes) (h : ∀ x ∈ t, isAlnum x = true ∨ x ∈ b!"+-.") :
    schemeLoop acc (t ++ 58 :: r) = some (acc.reverse ++ t, r) := by
  induction t generalizing acc with
  | nil =>
    rw [List.nil_append, schemeLoop, if_neg (by decide), if_pos rfl, List.append_nil]
  | cons c t ih =>
    rw [List.cons_append, schemeLoop, if_pos (h c List.mem_cons_self), ih _ fun x hx => h x (List.mem_cons_of_mem _ hx)]
    simp

theorem scheme_first : ∀ c : UInt8, 97 ≤ c ∧ c ≤ 122 → isLetter c = true ∧ isAlnum c = true ∧ lower1 c = c ∧ c < 128 ∧ isCtl c = false ∧ c ≠ 35 :=
  forall_u8 (by decide +kernel)

theorem scheme_more : ∀ c : UInt8, (97 ≤ c ∧ c ≤ 122) ∨ (48 ≤ c ∧ c ≤ 57) ∨ c = 43 ∨ c = 45 ∨ c = 46 →
    (isAlnum c = true ∨ c ∈ b!"+-.") ∧ lower1 c = c ∧ c < 128 ∧ isCtl c = false ∧ c ≠ 35 :=
  forall_u8 (by decide +kernel)

theorem scheme_bytes {s : Bytes} (h : Scheme s) : ∀ c ∈ s, lower1 c = c ∧ c < 128 ∧ isCtl c = false ∧ c ≠ 35 := by
  obtain ⟨c, t, rfl, hc, ht⟩ := h
  intro x hx
  rcases List.mem_cons.mp hx with rfl | hx
  · exact (scheme_first _ hc).2.2
  · exact (scheme_more _ (ht x hx)).2

theorem scheme_lower {s : Bytes} (h : Scheme s) : toLower s = s := by
  rw [toLower_ascii fun c hc => (scheme_bytes h c hc).2.1]
  calc s.map lower1 = s.map id := List.map_congr_left fun c hc => (scheme_bytes h c hc).1
    _ = s := List.map_id s

theorem getScheme_plain {s : Bytes} (h : Scheme s) (r : Bytes) : getScheme (s ++ 58 :: r) = some (s, r) := by
  obtain ⟨c, t, rfl, hc, ht⟩ := h
  rw [List.cons_append, getScheme]
  simp only [(scheme_first c hc).1, if_true]
  rw [schemeLoop_plain t [c] r fun x hx => (scheme_more x (ht x hx)).1]
  rfl

theorem scheme_ne {s : Bytes} (h : Scheme s) : s ≠ [] := by
  obtain ⟨c, t, rfl, -⟩ := h; simp

theorem takeWhile_stop {p : UInt8 → Bool} {a b : Bytes} (ha : ∀ c ∈ a, p c = true) (hb : b = [] ∨ ∃ c t, b = c :: t ∧ p c = false) :
    (a ++ b).takeWhile p = a ∧ (a ++ b).dropWhile p = b := by
  have hb' : b.takeWhile p = [] ∧ b.dropWhile p = b := by
    rcases hb with rfl | ⟨c, t, rfl, h⟩
    · exact ⟨rfl, rfl⟩
    · rw [List.takeWhile_cons, List.dropWhile_cons, h]
      exact ⟨rfl, rfl⟩
  rw [List.takeWhile_append_of_pos (by simpa using ha), List.dropWhile_append_of_pos (by simpa using ha), hb'.1, hb'.2]
  exact ⟨List.append_nil a, rfl⟩

/-- `parse` after the scheme, for text with an authority. -/
theorem parseRest_parts {u : Url} (hs : u.scheme ≠ []) {auth path : Bytes} (ha : 47 ∉ auth)
    (hp : path = [] ∨ path.head? = some 47) : parseRest u (b!"//" ++ (auth ++ path)) =
      (parseAuthority auth).bind fun r => { u with user := r.1, host := r.2 }.setPath path := by
  have hb : path = [] ∨ ∃ c t, path = c :: t ∧ (decide (c ≠ 47)) = false := by
    rcases hp with rfl | h
    · exact .inl rfl
    · cases path with
      | nil => cases h
      | cons c t => exact .inr ⟨c, t, rfl, by rw [Option.some.inj h]; rfl⟩
  obtain ⟨ht, hd⟩ := takeWhile_stop (p := fun c => decide (c ≠ 47)) (a := auth) (b := path)
    (fun c hc => decide_eq_true fun e => ha (e ▸ hc)) hb
  rw [parseRest, if_neg (fun h => h.1 rfl), if_neg (fun h => h.1 rfl), if_pos ⟨.inl hs, ⟨_, rfl⟩⟩]
  show (match parseAuthority ((auth ++ path).takeWhile fun c => decide (c ≠ 47)) with
    | none => none
    | some (user, host) => Url.setPath { u with user := user, host := host } ((auth ++ path).dropWhile fun c => decide (c ≠ 47))) = _
  rw [ht, hd]
  cases parseAuthority auth with
  | none => rfl
  | some r => rfl

/-- The query of a URI. -/
def withQuery (s : Bytes) (q : Option Bytes) : Url :=
  { scheme := s, forceQuery := decide (q = some []), rawQuery := q.getD [] }

theorem parseUrl0_parts {s auth path : Bytes} {q : Option Bytes} (hs : Scheme s) (ha : 47 ∉ auth) (ha2 : 63 ∉ auth)
    (hp : path = [] ∨ path.head? = some 47) (hp2 : 63 ∉ path)
    (hctl : ∀ c ∈ auth ++ path ++ queryPart q, isCtl c = false) :
    parseUrl0 (s ++ b!"://" ++ (auth ++ path ++ queryPart q)) =
      (parseAuthority auth).bind fun r => { withQuery s q with user := r.1, host := r.2 }.setPath path := by
  have hany : (s ++ b!"://" ++ (auth ++ path ++ queryPart q)).any isCtl = false := by
    rw [List.any_eq_false]
    intro c hc
    rcases List.mem_append.mp hc with hc | hc
    · rcases List.mem_append.mp hc with hc | hc
      · rw [(scheme_bytes hs c hc).2.2.1]; decide
      · have : ∀ x ∈ b!"://", ¬ isCtl x = true := by decide
        exact this c hc
    · rw [hctl c hc]; decide
  have hne : s ++ b!"://" ++ (auth ++ path ++ queryPart q) ≠ [42] := by
    intro e
    have := congrArg List.length e
    simp at this
    omega
  rw [parseUrl0, hany]
  simp only [Bool.false_eq_true, if_false]
  rw [if_neg hne, show s ++ b!"://" ++ (auth ++ path ++ queryPart q) = s ++ 58 :: (b!"//" ++ (auth ++ path) ++ queryPart q) by simp,
    getScheme_plain hs]
  simp only
  rw [scheme_lower hs]
  have hn : (63 : UInt8) ∉ b!"//" ++ (auth ++ path) := by
    intro hm
    simp only [List.mem_append] at hm
    rcases hm with hm | hm | hm
    · revert hm; decide
    · exact ha2 hm
    · exact hp2 hm
  have hsn : ∀ u : Url, u.scheme = s → u.scheme ≠ [] := fun u e => e ▸ scheme_ne hs
  cases q with
  | none =>
    rw [show b!"//" ++ (auth ++ path) ++ queryPart none = b!"//" ++ (auth ++ path) from List.append_nil _]
    rw [if_neg, cutAt_none hn]
    · exact parseRest_parts (scheme_ne hs) ha hp
    · rintro ⟨h, -⟩
      exact hn (List.mem_of_getLast? h)
  | some q =>
    rw [show b!"//" ++ (auth ++ path) ++ queryPart (some q) = b!"//" ++ (auth ++ path) ++ 63 :: q from rfl]
    cases q with
    | nil =>
      rw [if_pos, List.dropLast_concat]
      · exact parseRest_parts (scheme_ne hs) ha hp
      · refine ⟨List.getLast?_concat .., ?_⟩
        rw [List.count_append, List.count_eq_zero.mpr hn]
        rfl
    | cons c t =>
      rw [if_neg, cutAt_append _ hn]
      · exact parseRest_parts (scheme_ne hs) ha hp
      · rintro ⟨hl, hc⟩
        have hm : (63 : UInt8) ∈ c :: t := by
          have e : (b!"//" ++ (auth ++ path) ++ 63 :: c :: t).getLast? = (c :: t).getLast? := by
            rw [List.getLast?_append, List.getLast?_cons_cons, List.getLast?_cons]; rfl
          rw [e] at hl
          exact List.mem_of_getLast? hl
        rw [List.count_append, List.count_eq_zero.mpr hn, List.count_cons_self] at hc
        have := List.count_pos_iff.mpr hm
        omega

/-- The fragment of a URI. -/
def putFragment (f : Option Bytes) (u : Url) : Option Url :=
  if f.getD [] = [] then some u else u.setFragment (f.getD [])

theorem parseUrl_parts {s auth path : Bytes} {q f : Option Bytes} (hs : Scheme s) (ha : 47 ∉ auth) (ha2 : 63 ∉ auth)
    (hp : path = [] ∨ path.head? = some 47) (hp2 : 63 ∉ path) (hf : 35 ∉ auth ++ path ++ queryPart q)
    (hctl : ∀ c ∈ auth ++ path ++ queryPart q, isCtl c = false) :
    parseUrl (s ++ b!"://" ++ (auth ++ path ++ queryPart q) ++ fragPart f) =
      ((parseAuthority auth).bind fun r => { withQuery s q with user := r.1, host := r.2 }.setPath path).bind (putFragment f) := by
  have hn : (35 : UInt8) ∉ s ++ b!"://" ++ (auth ++ path ++ queryPart q) := by
    intro hm
    rcases List.mem_append.mp hm with hm | hm
    · rcases List.mem_append.mp hm with hm | hm
      · exact (scheme_bytes hs _ hm).2.2.2 rfl
      · revert hm; decide
    · exact hf hm
  have hc : cutAt 35 (s ++ b!"://" ++ (auth ++ path ++ queryPart q) ++ fragPart f) =
      (s ++ b!"://" ++ (auth ++ path ++ queryPart q), f.getD []) := by
    cases f with
    | none => rw [show ∀ x : Bytes, x ++ fragPart none = x from List.append_nil, cutAt_none hn]; rfl
    | some f => exact cutAt_append f hn
  rw [parseUrl, hc, parseUrl0_parts hs ha ha2 hp hp2 hctl]
  cases (parseAuthority auth).bind fun r => { withQuery s q with user := r.1, host := r.2 }.setPath path with
  | none => rfl
  | some u => rfl

/-- A URI with control bytes before the fragment is refused. -/
theorem parseUrl_ctl {x : Bytes} {f : Option Bytes} (hf : 35 ∉ x) (h : x.any isCtl = true) : parseUrl (x ++ fragPart f) = none := by
  have hc : cutAt 35 (x ++ fragPart f) = (x, f.getD []) := by
    cases f with
    | none => rw [show ∀ y : Bytes, y ++ fragPart none = y from List.append_nil, cutAt_none hf]; rfl
    | some f => exact cutAt_append f hf
  rw [parseUrl, hc, parseUrl0, if_pos h]

/-- Any text after `//` has these parts. -/
theorem parts_exist (x : Bytes) : ∃ (auth path : Bytes) (q f : Option Bytes), x = auth ++ path ++ queryPart q ++ fragPart f ∧
    47 ∉ auth ∧ 63 ∉ auth ∧ (path = [] ∨ path.head? = some 47) ∧ 63 ∉ path ∧ 35 ∉ auth ++ path ++ queryPart q := by
  obtain ⟨y, f, rfl, hy⟩ : ∃ (y : Bytes) (f : Option Bytes), x = y ++ fragPart f ∧ 35 ∉ y := by
    cases h : cut 35 x with
    | none => exact ⟨x, none, (List.append_nil x).symm, cut_none.mp h⟩
    | some r => exact ⟨r.1, some r.2, (cut_some h).1, (cut_some h).2⟩
  obtain ⟨z, q, rfl, hz⟩ : ∃ (z : Bytes) (q : Option Bytes), y = z ++ queryPart q ∧ 63 ∉ z := by
    cases h : cut 63 y with
    | none => exact ⟨y, none, (List.append_nil y).symm, cut_none.mp h⟩
    | some r => exact ⟨r.1, some r.2, (cut_some h).1, (cut_some h).2⟩
  obtain ⟨auth, path, rfl, ha, hp⟩ : ∃ auth path : Bytes, z = auth ++ path ∧ 47 ∉ auth ∧ (path = [] ∨ path.head? = some 47) := by
    cases h : cut 47 z with
    | none => exact ⟨z, [], (List.append_nil z).symm, cut_none.mp h, .inl rfl⟩
    | some r => exact ⟨r.1, 47 :: r.2, (cut_some h).1, (cut_some h).2, .inr rfl⟩
  exact ⟨auth, path, q, f, rfl, ha, fun h => hz (List.mem_append_left _ h), hp, fun h => hz (List.mem_append_right _ h), hy⟩

end Ouro
