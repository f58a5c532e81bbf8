import Verif.Lemmas.UrlClean
import Verif.Props.Hls
/-! # C93: the address of the media file in a playlist -/
namespace Ouro
open Spec

theorem cleanLoop_names (names : List Bytes) (h : ∀ n ∈ names, n = [] ∨ FileName n) (rooted : Bool) (acc : List Bytes) :
    cleanLoop rooted acc names = acc.reverse ++ names.filter (· ≠ []) := by
  induction names generalizing acc with
  | nil => simp [cleanLoop]
  | cons n t ih =>
    have ht := ih (fun x hx => h x (List.mem_cons_of_mem _ hx))
    rw [cleanLoop.eq_def]
    simp only
    rcases h n List.mem_cons_self with rfl | hn
    · rw [if_pos (.inl rfl), ht]; simp
    · rw [if_neg (fun h => h.elim hn.1 hn.2.1), if_neg hn.2.2.1, ht, List.filter_cons_of_pos (by simpa using hn.1)]
      simp

theorem split_dirText (dirs : List Bytes) (h : ∀ n ∈ dirs, (47 : UInt8) ∉ n) (last : Bytes) (hl : (47 : UInt8) ∉ last) (x : Bytes) (hx : (47 : UInt8) ∉ x) :
    split 47 (x ++ dirText dirs ++ 47 :: last) = x :: dirs ++ [last] := by
  induction dirs generalizing x with
  | nil => rw [dirText, List.flatMap_nil, List.append_nil, split_append _ hx, split_none hl]; rfl
  | cons d t ih =>
    have : x ++ dirText (d :: t) ++ 47 :: last = x ++ 47 :: (d ++ dirText t ++ 47 :: last) := by simp [dirText]
    rw [this, split_append _ hx, ih (fun n hn => h n (List.mem_cons_of_mem _ hn)) d (h d List.mem_cons_self)]
    rfl

theorem intercalate_dirText (dirs : List Bytes) (h : dirs ≠ []) : 47 :: List.intercalate [47] dirs = dirText dirs := by
  induction dirs with
  | nil => exact absurd rfl h
  | cons d t ih =>
    cases t with
    | nil => simp [dirText, List.intercalate]
    | cons e t =>
      have := ih (by simp)
      rw [show dirText (d :: e :: t) = 47 :: d ++ dirText (e :: t) by simp [dirText], ← this]
      simp [List.intercalate]

theorem clean_dirText (dirs : List Bytes) (h : ∀ n ∈ dirs, FileName n) (n : Bytes) (hn : FileName n) (slash : Bool) :
    pathClean (dirText dirs ++ (if slash then [47] else []) ++ 47 :: n) = dirText (dirs ++ [n]) := by
  have hne : dirs ++ [n] ≠ [] := by simp
  have hf : (dirs ++ [n]).filter (· ≠ []) = dirs ++ [n] := by
    rw [List.filter_eq_self]
    intro x hx
    rcases List.mem_append.mp hx with hx | hx
    · simpa using (h x hx).1
    · rw [List.mem_singleton.mp hx]; simpa using hn.1
  have hhead : (dirText dirs ++ (if slash then [47] else []) ++ 47 :: n).head? = some 47 := by
    cases dirs with
    | nil => cases slash <;> rfl
    | cons d t => rfl
  rw [pathClean, if_pos hhead]
  have key : cleanLoop true [] (split 47 (dirText dirs ++ (if slash then [47] else []) ++ 47 :: n)) = dirs ++ [n] := by
    cases slash with
    | false =>
      have := split_dirText dirs (fun x hx => (h x hx).2.2.2) n hn.2.2.2 [] (by simp)
      rw [List.nil_append] at this
      rw [show dirText dirs ++ (if false = true then [47] else []) ++ 47 :: n = dirText dirs ++ 47 :: n by simp, this,
        cleanLoop_names]
      · rw [show ([] : Bytes) :: dirs ++ [n] = [] :: (dirs ++ [n]) from rfl, List.filter_cons_of_neg (by simp), hf]; rfl
      · intro x hx
        rcases List.mem_append.mp hx with hx | hx
        · rcases List.mem_cons.mp hx with rfl | hx
          · exact .inl rfl
          · exact .inr (h x hx)
        · rw [List.mem_singleton.mp hx]; exact .inr hn
    | true =>
      have := split_dirText (dirs ++ [[]]) (fun x hx => by
        rcases List.mem_append.mp hx with hx | hx
        · exact (h x hx).2.2.2
        · rw [List.mem_singleton.mp hx]; simp) n hn.2.2.2 [] (by simp)
      rw [List.nil_append] at this
      rw [show dirText dirs ++ (if true = true then [47] else []) ++ 47 :: n = dirText (dirs ++ [[]]) ++ 47 :: n by simp [dirText], this,
        cleanLoop_names]
      · rw [show ([] : Bytes) :: (dirs ++ [[]]) ++ [n] = [] :: (dirs ++ ([] :: [n])) by simp, List.filter_cons_of_neg (by simp),
          List.filter_append, List.filter_cons_of_neg (by simp), ← List.filter_append, hf]
        rfl
      · intro x hx
        simp only [List.mem_append, List.mem_cons, List.not_mem_nil, or_false] at hx
        rcases hx with (rfl | hx | rfl) | rfl
        · exact .inl rfl
        · exact .inr (h x hx)
        · exact .inl rfl
        · exact .inr hn
  rw [key]
  exact intercalate_dirText _ hne

theorem clean_name (n : Bytes) (hn : FileName n) : pathClean n = n := by
  have hh : n.head? ≠ some 47 := fun e => hn.2.2.2 (List.mem_of_mem_head? e)
  have hk : cleanLoop false [] (split 47 n) = [n] := by
    rw [split_none hn.2.2.2, cleanLoop_names _ (fun x hx => by rw [List.mem_singleton.mp hx]; exact .inr hn),
      List.filter_cons_of_pos (by simpa using hn.1)]
    rfl
  rw [pathClean, if_neg hh, hk, if_neg (by simp)]
  simp [List.intercalate]

/-- `pathBase` finds the last name. -/
theorem base_name (pre n : Bytes) (hp : pre = [] ∨ pre.getLast? = some 47) (hn : FileName n) : pathBase (pre ++ n) = n := by
  have hne : pre ++ n ≠ [] := fun e => hn.1 (List.append_eq_nil_iff.mp e).2
  rw [pathBase, if_neg hne]
  have hr : ((pre ++ n).reverse.dropWhile (· = 47)) = n.reverse ++ pre.reverse := by
    rw [List.reverse_append]
    cases hrev : n.reverse with
    | nil => exact absurd (List.reverse_eq_nil_iff.mp hrev) hn.1
    | cons c t =>
      rw [List.cons_append, List.dropWhile_cons_of_neg]
      intro e
      apply hn.2.2.2
      rw [← List.mem_reverse, hrev]
      rw [decide_eq_true_eq] at e
      rw [e]
      exact List.mem_cons_self
  have ht : (n.reverse ++ pre.reverse).takeWhile (fun c => decide (c ≠ 47)) = n.reverse := by
    apply (takeWhile_stop _ _).1
    · exact fun c hc => decide_eq_true fun e => hn.2.2.2 (e ▸ List.mem_reverse.mp hc)
    · rcases hp with rfl | hp
      · exact .inl rfl
      · right
        cases hrev : pre.reverse with
        | nil => rw [List.reverse_eq_nil_iff.mp hrev] at hp; cases hp
        | cons c t =>
          rw [List.getLast?_eq_head?_reverse, hrev] at hp
          exact ⟨c, t, rfl, by rw [Option.some.inj hp]; rfl⟩
  simp only
  rw [hr, ht, if_neg (fun e => hn.1 (List.reverse_eq_nil_iff.mp e)), List.reverse_reverse]

theorem kept_pathByte : ∀ c : UInt8, shouldEscape .path c = false → PathByte c := forall_u8 (by decide +kernel)

/-- An escaped path is the text of a path, and stands for what was escaped. -/
theorem pct_escape (s : Bytes) : Pct PathByte (urlEscape .path s) s := by
  induction s with
  | nil => exact .nil
  | cons c s ih =>
    show Pct PathByte (escape1 .path c ++ urlEscape .path s) (c :: s)
    rw [escape1]
    by_cases h : shouldEscape .path c = true
    · rw [if_pos h]
      have hx : hexVal (upperHex (c.toNat / 16)) = some (c.toNat / 16) :=
        upperHex_val ⟨c.toNat / 16, by have := c.toNat_lt; omega⟩
      have hy : hexVal (upperHex (c.toNat % 16)) = some (c.toNat % 16) := upperHex_val ⟨c.toNat % 16, by omega⟩
      have := Pct.esc hx hy ih
      rw [Nat.div_add_mod] at this
      simpa using this
    · rw [if_neg h]
      exact .byte (kept_pathByte c (by simpa using h)) ih

theorem escape_slash (s : Bytes) : urlEscape .path (47 :: s) = 47 :: urlEscape .path s := rfl

theorem media_core (a : Address) (ha : a.Valid) (hu : a.user = none) (dirs : List Bytes) (hd : ∀ n ∈ dirs, FileName n) (slash : Bool)
    (hp : Pct PathByte a.path (dirText dirs ++ if slash then [47] else [])) (pre n : Bytes) (hpre : pre = [] ∨ pre.getLast? = some 47)
    (hn : FileName n) : ∃ p, playlistURI a.text (pre ++ n) = some (Address.withPath a p) ∧
      (p = urlEscape .path (dirText (dirs ++ [n])) ∨ n = b!"*" ∧ dirs = [] ∧ p = b!"/*") := by
  obtain ⟨ui, raw, h1, -, -, h4, h5⟩ := parse_address ha.written hp
  have hui := h4 hu
  subst hui
  rw [playlistURI, h1]
  simp only
  rw [base_name pre n hpre hn]
  generalize hP : (dirText dirs ++ if slash then [47] else []) = P at *
  have hhost : a.host ++ portPart a.port ≠ [] := by
    intro e
    have := (List.append_eq_nil_iff.mp e).1
    rcases ha.host with ⟨h, -⟩ | ⟨v, h, -⟩
    · exact h this
    · rw [h] at this; cases this
  -- the joined path
  have hjoin : pathJoin P n = dirText (dirs ++ [n]) ∨ (dirs = [] ∧ P = [] ∧ pathJoin P n = n) := by
    rw [pathJoin]
    by_cases hP0 : P = []
    · right
      rw [if_pos hP0, if_neg hn.1, clean_name n hn]
      refine ⟨?_, hP0, rfl⟩
      cases dirs with
      | nil => rfl
      | cons d t => rw [← hP] at hP0; simp [dirText] at hP0
    · left
      rw [if_neg hP0, ← hP]
      exact clean_dirText dirs hd n hn slash
  have hlen : pathJoin P n ≠ P := by
    rcases hjoin with h | ⟨-, h0, h⟩
    · rw [h, ← hP]
      intro e
      have := congrArg List.length e
      cases slash <;> simp [dirText, hn.1] at this
    · rw [h, h0]; exact hn.1
  have hraw : ∀ v : Url, v.path = pathJoin P n → v.rawPath = raw →
      v.escapedPath = if pathJoin P n = [42] then [42] else urlEscape .path (pathJoin P n) := by
    intro v hv hr
    rw [Url.escapedPath, if_neg, hv]
    rintro ⟨e1, -, e2⟩
    rw [hr, h5] at e1 e2
    split at e1
    · exact e1 rfl
    · rename_i hne
      rw [if_neg hne, pct_unescape (.inl rfl) pathByte_37 hp, hv] at e2
      exact hlen (Option.some.inj e2).symm
  have hb : ∀ c ∈ a.host ++ portPart a.port, shouldEscape .host c = false := fun c hc =>
    (hostByte_byte c ((List.mem_append.mp hc).elim (host_bytes ha.host c) (port_bytes ha.written.port c))).2.2.2.2.2.2
  -- the text
  have htext : ∀ v : Url, v.scheme = a.scheme → v.host = a.host ++ portPart a.port → v.opaq = [] → v.user = none →
      v.back = queryPart a.query →
      v.text = Address.withPath a ((if v.escapedPath ≠ [] ∧ v.escapedPath.head? ≠ some 47 then [47] else []) ++ v.escapedPath) := by
    intro v e1 e2 e3 e4 e5
    have hs : v.scheme ≠ [] := e1 ▸ scheme_ne ha.scheme
    have hh : v.host ≠ [] := e2 ▸ hhost
    have hf : v.front = v.scheme ++ b!"://" ++ urlEscape .host v.host := by
      rw [Url.front, if_pos hs, if_pos ⟨.inl hs, fun h => hh h.2.1⟩, if_pos (.inl hh), e4]
      simp
    have hpt : v.pathText = (if v.escapedPath ≠ [] ∧ v.escapedPath.head? ≠ some 47 then [47] else []) ++ v.escapedPath := by
      rw [Url.pathText, if_neg (c := v.front = [] ∧ _)]
      · simp [hh]
      · rintro ⟨h, -⟩
        rw [hf] at h
        exact hs (List.append_eq_nil_iff.mp (List.append_eq_nil_iff.mp h).1).1
    rw [Url.text, if_neg (fun h => h e3), hf, hpt, e5, e1, e2, escape_plain hb, Address.withPath]
  refine ⟨_, congrArg some (htext _ rfl rfl rfl rfl (back_query rfl rfl rfl)), ?_⟩
  have hesc := hraw { withQuery a.scheme a.query with user := none, host := a.host ++ portPart a.port, path := pathJoin P n, rawPath := raw } rfl rfl
  rw [hesc]
  rcases hjoin with h | ⟨h0, -, h⟩
  · left
    rw [h]
    have hcons : ∃ t, dirText (dirs ++ [n]) = 47 :: t := by
      cases dirs with
      | nil => exact ⟨n, by simp [dirText]⟩
      | cons d t => exact ⟨_, rfl⟩
    obtain ⟨t, ht⟩ := hcons
    rw [ht, if_neg (c := (47 :: t : Bytes) = [42]) (by simp), escape_slash, if_neg]
    · rfl
    · rintro ⟨-, h⟩; exact h rfl
  · rw [h, h0]
    by_cases h42 : n = [42]
    · right
      rw [if_pos h42]
      exact ⟨h42, rfl, rfl⟩
    · left
      rw [if_neg h42, if_pos]
      · simp [dirText, escape_slash]
      · cases n with
        | nil => exact absurd rfl hn.1
        | cons c t =>
          have hc : c ≠ 47 := fun e => hn.2.2.2 (e ▸ List.mem_cons_self)
          show escape1 .path c ++ urlEscape .path t ≠ [] ∧ (escape1 .path c ++ urlEscape .path t).head? ≠ some 47
          rw [escape1]
          split
          · exact ⟨by simp, by simp⟩
          · exact ⟨by simp, by simpa using hc⟩

/-- **C93**. For every address of a directory, with or without a slash at the end, and every file in whatever directory: the address in
the playlist has the same scheme, host, port and query, and its path stands for the directory's path followed by the name of
the file. All bytes are allowed in the name of the file but a slash. -/
theorem C93_media_partial (a : Address) (ha : a.Valid) (hu : a.user = none) (dirs : List Bytes) (hd : ∀ n ∈ dirs, FileName n) (slash : Bool)
    (hp : Pct PathByte a.path (dirText dirs ++ if slash then [47] else [])) (pre n : Bytes) (hpre : pre = [] ∨ pre.getLast? = some 47)
    (hn : FileName n) : ∃ p, playlistURI a.text (pre ++ n) = some (Address.withPath a p) ∧ Pct PathByte p (dirText (dirs ++ [n])) := by
  obtain ⟨p, h1, h2⟩ := media_core a ha hu dirs hd slash hp pre n hpre hn
  refine ⟨p, h1, ?_⟩
  rcases h2 with rfl | ⟨rfl, rfl, rfl⟩
  · exact pct_escape _
  · exact .byte (by decide) (.byte (by decide) .nil)

/-- C93: and with unreserved characters only, that is the text of the directory's address, a slash and the name. -/
theorem C93_plain_partial (a : Address) (ha : a.Valid) (hu : a.user = none) (dirs : List Bytes)
    (hd : ∀ n ∈ dirs, FileName n ∧ ∀ c ∈ n, Unreserved c) (hp : a.path = dirText dirs) (pre n : Bytes)
    (hpre : pre = [] ∨ pre.getLast? = some 47) (hn : FileName n ∧ ∀ c ∈ n, Unreserved c) :
    playlistURI a.text (pre ++ n) = some (Address.withPath a (a.path ++ 47 :: n)) := by
  have hkept : ∀ c : UInt8, (Unreserved c ∨ c = 47) → shouldEscape .path c = false := forall_u8 (by decide +kernel)
  have hb : ∀ l : List Bytes, (∀ n ∈ l, ∀ c ∈ n, Unreserved c) → ∀ c ∈ dirText l, Unreserved c ∨ c = 47 := by
    intro l hl c hc
    obtain ⟨x, hx, hcx⟩ := List.mem_flatMap.mp hc
    rcases List.mem_cons.mp hcx with rfl | hcx
    · exact .inr rfl
    · exact .inl (hl x hx c hcx)
  have hpct : Pct PathByte a.path (dirText dirs ++ if false = true then [47] else []) := by
    rw [show (dirText dirs ++ if false = true then [47] else []) = dirText dirs by simp, hp]
    have := pct_escape (dirText dirs)
    rwa [escape_plain fun c hc => hkept c (hb dirs (fun n hn => (hd n hn).2) c hc)] at this
  obtain ⟨p, h1, h2⟩ := media_core a ha hu dirs (fun n hn => (hd n hn).1) false hpct pre n hpre hn.1
  have hp' : p = a.path ++ 47 :: n := by
    rcases h2 with rfl | ⟨rfl, -, -⟩
    · rw [escape_plain fun c hc => hkept c (hb _ (fun x hx => by
        rcases List.mem_append.mp hx with hx | hx
        · exact (hd x hx).2
        · rw [List.mem_singleton.mp hx]; exact hn.2) c hc), hp]
      simp [dirText]
    · exact absurd (hn.2 42 (by decide)) (by decide)
  rw [h1, hp']

/-- The test of the repository, and names that need escapes. -/
example : playlistURI b!"https://example.com/media" b!"/var/media/video.ts" = some b!"https://example.com/media/video.ts" ∧
    playlistURI b!"https://example.com:8080/media/?key=1" b!"my video#1.ts" = some b!"https://example.com:8080/media/my%20video%231.ts?key=1" := by
  decide +kernel

/-- The hypotheses of the law hold of the second. -/
example : Address.Valid { scheme := b!"https", user := none, host := b!"example.com", port := some b!"8080", path := b!"/media/", query := some b!"key=1" } ∧
    Pct PathByte b!"/media/" (dirText [b!"media"] ++ if true then [47] else []) ∧ FileName b!"my video#1.ts" ∧ FileName b!"media" := by
  have hp : Pct PathByte b!"/media/" b!"/media/" := .byte (by decide) (.byte (by decide) (.byte (by decide) (.byte (by decide) (.byte (by decide)
    (.byte (by decide) (.byte (by decide) .nil))))))
  refine ⟨⟨⟨104, b!"ttps", rfl, by decide, by decide⟩, ?_, ?_, .inl ⟨by decide, by decide⟩, ?_, .inr rfl, ⟨_, hp⟩, ?_⟩, hp, ?_, ?_⟩
  · intro n p h; cases h
  · intro n p h; cases h
  · intro p h
    cases h
    decide
  · intro q h
    cases h
    decide
  · exact ⟨by decide, by decide, by decide, by decide⟩
  · exact ⟨by decide, by decide, by decide, by decide⟩

/-- An escaped slash (or any other escape that matters) in the address of the directory is lost: it names another directory. -/
theorem C93_escape_refuted : playlistURI b!"https://example.com/a%2Fb" b!"v.ts" = some b!"https://example.com/a/b/v.ts" := by decide +kernel

/-- An address without a scheme, with a port, is accepted, and the file is not named at all. -/
theorem C93_no_scheme_refuted : playlistURI b!"localhost:8080/media" b!"v.ts" = some b!"localhost:8080/media" := by decide +kernel

/-! ## Lines -/

/-- C93: whatever the address and the file name, the address in the playlist has no control byte, so it is one line. -/
theorem C93_no_control (uri name u : Bytes) (h : playlistURI uri name = some u) : ∀ c ∈ u, 32 ≤ c ∧ c ≠ 127 := by
  rw [playlistURI] at h
  cases hp : parseUrl uri with
  | none => rw [hp] at h; cases h
  | some v =>
    rw [hp] at h
    cases h
    obtain ⟨h1, h2, h3⟩ := parseUrl_copied hp
    intro c hc
    rcases visible_text _ c hc with h | h | h | h
    · exact visible_ctl h
    · exact visible_ctl (h1 c h)
    · exact (ctl_iff c).mp (h2 c h).2
    · exact (ctl_iff c).mp (h3 c h).2

/-- C40, for a playlist as the user makes it: nothing is required of the address and the name. -/
theorem C40_made_partial {D : Type} (fmt : D → Bytes) (zero : D) (uri name : Bytes) (n : Nat) (hn : 1 ≤ n) (p0 : Playlist D)
    (h0 : newPlaylistFor zero uri name n = some p0) (hist : List (D × Int)) (hk : hist.length < 2 * n) (hfmt : ∀ d, (10 : UInt8) ∉ fmt d) :
    ∃ pl s segs, addSegments p0 hist = .ok pl ∧ playlistString fmt pl = .ok s ∧
      segs.length = min hist.length n ∧ split 10 s = playlistLines fmt p0.uri segs ++ [[]] := by
  rw [newPlaylistFor] at h0
  cases hu : playlistURI uri name with
  | none => rw [hu] at h0; cases h0
  | some u =>
    rw [hu] at h0
    cases h0
    exact C40_framed_partial fmt zero u n hn hist hk
      (fun hm => absurd (C93_no_control uri name u hu 10 hm).1 (by decide)) hfmt

example : (newPlaylistFor () b!"https://example.com/media" b!"a\n#EXT-X-ENDLIST\nb.ts" 3).map (·.uri) =
    some b!"https://example.com/media/a%0A%23EXT-X-ENDLIST%0Ab.ts" := by decide +kernel

end Ouro
