import Verif.Spec.Walk
import Verif.Props.Media
/-! # C93 for every path and with credentials -/
namespace Ouro
open Spec

theorem cleanLoop_follow (comps : List Bytes) : ∀ acc : List Bytes, (∀ x ∈ acc, x ≠ b!"..") → cleanLoop true acc comps = follow acc.reverse comps := by
  induction comps with
  | nil => intro acc _; rfl
  | cons x rest ih =>
    intro acc h
    rw [cleanLoop.eq_def, follow]
    dsimp only
    by_cases h1 : x = [] ∨ x = b!"."
    · rw [if_pos h1, if_pos h1]; exact ih acc h
    · rw [if_neg h1, if_neg h1]
      by_cases h2 : x = b!".."
      · rw [if_pos h2, if_pos h2]
        cases acc with
        | nil => dsimp only; rw [if_pos rfl]; exact ih [] (fun x hx => by (cases hx))
        | cons y acc =>
          dsimp only
          rw [if_neg (h y (by simp)), ih acc (fun z hz => h z (by simp [hz]))]
          rw [List.reverse_cons, List.dropLast_concat]
      · rw [if_neg h2, if_neg h2, ih (x :: acc) (fun z hz => by
          rcases List.mem_cons.1 hz with rfl | hz
          · exact h2
          · exact h z hz), List.reverse_cons]

theorem follow_append (a b : List Bytes) : ∀ here, follow here (a ++ b) = follow (follow here a) b := by
  induction a with
  | nil => intro here; rfl
  | cons x a ih =>
    intro here
    rw [List.cons_append, follow, follow, ih, ih, ih]
    split
    · rfl
    · split <;> rfl

theorem follow_name (here : List Bytes) (n : Bytes) (hn : FileName n) : follow here [n] = here ++ [n] := by
  rw [follow, if_neg (fun h => h.elim hn.1 hn.2.1), if_neg hn.2.2.1, follow]

theorem follow_names (comps : List Bytes) : ∀ here, (∀ x ∈ comps, FileName x) → follow here comps = here ++ comps := by
  induction comps with
  | nil => intro here _; simp [follow]
  | cons x comps ih =>
    intro here h
    rw [show x :: comps = [x] ++ comps from rfl, follow_append, follow_name _ _ (h x (by simp)), ih _ (fun y hy => h y (by simp [hy]))]
    simp

/-- One always is in a directory that can be written with names only. -/
theorem follow_fileNames (comps : List Bytes) : ∀ here, (∀ x ∈ here, FileName x) → (∀ x ∈ comps, (47 : UInt8) ∉ x) → ∀ x ∈ follow here comps, FileName x := by
  induction comps with
  | nil => intro here h _; exact h
  | cons y comps ih =>
    intro here h hs
    have hs' : ∀ x ∈ comps, (47 : UInt8) ∉ x := fun x hx => hs x (by simp [hx])
    rw [follow]
    split
    · exact ih here h hs'
    · next h1 =>
      split
      · exact ih _ (fun x hx => h x (List.dropLast_subset _ hx)) hs'
      · next h2 =>
        refine ih _ (fun x hx => ?_) hs'
        rcases List.mem_append.1 hx with hx | hx
        · exact h x hx
        · rw [List.mem_singleton.1 hx]
          exact ⟨fun e => h1 (.inl e), fun e => h1 (.inr e), h2, hs y (by simp)⟩

theorem dirText_inj {a b : List Bytes} (ha : ∀ x ∈ a, (47 : UInt8) ∉ x) (hb : ∀ x ∈ b, (47 : UInt8) ∉ x) (h : dirText a = dirText b) : a = b := by
  have h1 := split_dirText a ha [] (by simp) [] (by simp)
  have h2 := split_dirText b hb [] (by simp) [] (by simp)
  rw [h, h2] at h1
  simpa using h1.symm

theorem clean_follow (comps : List Bytes) (h : ∀ x ∈ comps, (47 : UInt8) ∉ x) (n : Bytes) (hn : FileName n) :
    pathClean (dirText comps ++ 47 :: n) = dirText (follow [] comps ++ [n]) := by
  have hhead : (dirText comps ++ 47 :: n).head? = some 47 := by
    cases comps with
    | nil => rfl
    | cons d t => rfl
  have hs := split_dirText comps h n hn.2.2.2 [] (by simp)
  rw [List.nil_append] at hs
  rw [pathClean, if_pos hhead, hs, cleanLoop_follow _ [] (fun x hx => by (cases hx)), show ([] : Bytes) :: comps ++ [n] = [[]] ++ (comps ++ [n]) from rfl,
    follow_append, follow_append, follow_name _ _ hn]
  exact intercalate_dirText _ (by simp)

theorem kept_userByte : ∀ c : UInt8, shouldEscape .user c = false → UserByte c := forall_u8 (by decide +kernel)

theorem pct_escape_user (P : UInt8 → Prop) (hP : ∀ c, UserByte c → P c) (s : Bytes) : Pct P (urlEscape .user s) s := by
  induction s with
  | nil => exact .nil
  | cons c s ih =>
    show Pct P (escape1 .user c ++ urlEscape .user s) (c :: s)
    rw [escape1]
    by_cases h : shouldEscape .user c = true
    · rw [if_pos h]
      have hx : hexVal (upperHex (c.toNat / 16)) = some (c.toNat / 16) := upperHex_val ⟨c.toNat / 16, by have := c.toNat_lt; omega⟩
      have hy : hexVal (upperHex (c.toNat % 16)) = some (c.toNat % 16) := upperHex_val ⟨c.toNat % 16, by omega⟩
      have := Pct.esc hx hy ih
      rw [Nat.div_add_mod] at this
      simpa using this
    · rw [if_neg h]
      exact .byte (hP c (kept_userByte c (by simpa using h))) ih

/-- The credentials as they are written again. -/
def writtenUser : Option Userinfo → Option (Bytes × Option Bytes)
  | none => none
  | some (n, p) => some (urlEscape .user n, p.map (urlEscape .user))

theorem writtenUser_part (ui : Option Userinfo) : (match ui with | none => [] | some ui => userText ui ++ [64]) = userPart (writtenUser ui) := by
  cases ui with
  | none => rfl
  | some x =>
    obtain ⟨n, p⟩ := x
    cases p with
    | none => simp [userText, writtenUser, userPart]
    | some p => simp [userText, writtenUser, userPart]

/-- **C93** for every path and with credentials: the address in the playlist has the same scheme, host, port and query, it gives the same credentials if
there are any, and its path stands for the names of the directory that the address leads to, followed by the name of the file. -/
theorem C93_any (a : Address) (ha : a.Valid) (comps : List Bytes) (hc : ∀ x ∈ comps, (47 : UInt8) ∉ x) (hp : Pct PathByte a.path (dirText comps))
    (pre n : Bytes) (hpre : pre = [] ∨ pre.getLast? = some 47) (hn : FileName n) :
    ∃ user p, playlistURI a.text (pre ++ n) = some (Address.text { a with user := user, path := p }) ∧ Pct PathByte p (dirText (follow [] comps ++ [n])) ∧
      ∃ u, a.Credentials u ∧ Address.Credentials { a with user := user } u := by
  obtain ⟨ui, raw, h1, hcred, -, -, h5⟩ := parse_address ha.written hp
  rw [playlistURI, h1]
  simp only
  rw [base_name pre n hpre hn]
  generalize hP : dirText comps = P at *
  have hhost : a.host ++ portPart a.port ≠ [] := by
    intro e
    have := (List.append_eq_nil_iff.mp e).1
    rcases ha.host with ⟨h, -⟩ | ⟨v, h, -⟩
    · exact h this
    · rw [h] at this; cases this
  have hjoin : pathJoin P n = dirText (follow [] comps ++ [n]) ∨ (comps = [] ∧ P = [] ∧ pathJoin P n = n) := by
    rw [pathJoin]
    by_cases hP0 : P = []
    · right
      rw [if_pos hP0, if_neg hn.1, clean_name n hn]
      refine ⟨?_, hP0, rfl⟩
      cases comps with
      | nil => rfl
      | cons d t => rw [← hP] at hP0; simp [dirText] at hP0
    · left
      rw [if_neg hP0, ← hP]
      exact clean_follow comps hc n hn
  have hwalk : ∀ x ∈ follow [] comps, FileName x := follow_fileNames comps [] (fun x hx => by (cases hx)) hc
  have hlen : pathJoin P n ≠ P := by
    rcases hjoin with h | ⟨-, h0, h⟩
    · rw [h, ← hP]
      intro e
      have hall : ∀ x ∈ follow [] comps ++ [n], FileName x := fun x hx => by
        rcases List.mem_append.1 hx with hx | hx
        · exact hwalk x hx
        · rw [List.mem_singleton.1 hx]; exact hn
      have e1 := dirText_inj (fun x hx => (hall x hx).2.2.2) hc e
      have e2 := follow_names comps [] (fun x hx => hall x (by rw [e1]; exact hx))
      rw [List.nil_append] at e2
      rw [e2] at e1
      have := congrArg List.length e1
      simp at this
    · rw [h, h0]; exact hn.1
  have hraw : ∀ v : Url, v.path = pathJoin P n → v.rawPath = raw →
      v.escapedPath = if pathJoin P n = [42] then [42] else urlEscape .path (pathJoin P n) := by
    intro v hv hr
    rw [Url.escapedPath, if_neg, hv]
    rintro ⟨e1, -, e2⟩
    rw [hr, h5] at e1 e2
    split at e1
    · exact e1 rfl
    · rename_i hne
      rw [if_neg hne, pct_unescape (.inl rfl) pathByte_37 hp, hv] at e2
      exact hlen (Option.some.inj e2).symm
  have hb : ∀ c ∈ a.host ++ portPart a.port, shouldEscape .host c = false := fun c hc =>
    (hostByte_byte c ((List.mem_append.mp hc).elim (host_bytes ha.host c) (port_bytes ha.written.port c))).2.2.2.2.2.2
  have htext : ∀ v : Url, v.scheme = a.scheme → v.host = a.host ++ portPart a.port → v.opaq = [] → v.user = ui →
      v.back = queryPart a.query →
      v.text = Address.text { a with user := writtenUser ui, path := (if v.escapedPath ≠ [] ∧ v.escapedPath.head? ≠ some 47 then [47] else []) ++ v.escapedPath } := by
    intro v e1 e2 e3 e4 e5
    have hs : v.scheme ≠ [] := e1 ▸ scheme_ne ha.scheme
    have hh : v.host ≠ [] := e2 ▸ hhost
    have hf : v.front = v.scheme ++ b!"://" ++ userPart (writtenUser ui) ++ urlEscape .host v.host := by
      rw [Url.front, if_pos hs, if_pos ⟨.inl hs, fun h => hh h.2.1⟩, if_pos (.inl hh), e4, ← writtenUser_part]
      simp
      cases ui <;> rfl
    have hpt : v.pathText = (if v.escapedPath ≠ [] ∧ v.escapedPath.head? ≠ some 47 then [47] else []) ++ v.escapedPath := by
      rw [Url.pathText, if_neg (c := v.front = [] ∧ _)]
      · simp [hh]
      · rintro ⟨h, -⟩
        rw [hf] at h
        exact hs (List.append_eq_nil_iff.mp (List.append_eq_nil_iff.mp (List.append_eq_nil_iff.mp h).1).1).1
    rw [Url.text, if_neg (fun h => h e3), hf, hpt, e5, e1, e2, escape_plain hb, Address.text]
    simp [List.append_assoc]
  refine ⟨writtenUser ui, _, congrArg some (htext _ rfl rfl rfl rfl (back_query rfl rfl rfl)), ?_, _, hcred, ?_⟩
  · have hesc := hraw { withQuery a.scheme a.query with user := ui, host := a.host ++ portPart a.port, path := pathJoin P n, rawPath := raw } rfl rfl
    rw [hesc]
    rcases hjoin with h | ⟨h0, -, h⟩
    · rw [h]
      obtain ⟨t, ht⟩ : ∃ t, dirText (follow [] comps ++ [n]) = 47 :: t := by
        cases follow [] comps with
        | nil => exact ⟨n, by simp [dirText]⟩
        | cons d t => exact ⟨_, rfl⟩
      rw [ht, if_neg (c := (47 :: t : Bytes) = [42]) (by simp), escape_slash, if_neg]
      · exact pct_escape (47 :: t)
      · rintro ⟨-, h⟩; exact h rfl
    · rw [h, h0]
      show Pct PathByte _ (dirText ([] ++ [n]))
      rw [show dirText ([] ++ [n]) = 47 :: n by simp [dirText]]
      by_cases h42 : n = [42]
      · rw [if_pos h42, h42]
        exact .byte (by decide) (.byte (by decide) .nil)
      · rw [if_neg h42, if_pos]
        · exact pct_escape (47 :: n)
        · cases n with
          | nil => exact absurd rfl hn.1
          | cons c t =>
            have hc : c ≠ 47 := fun e => hn.2.2.2 (e ▸ List.mem_cons_self)
            show escape1 .path c ++ urlEscape .path t ≠ [] ∧ (escape1 .path c ++ urlEscape .path t).head? ≠ some 47
            rw [escape1]
            split
            · exact ⟨by simp, by simp⟩
            · exact ⟨by simp, by simpa using hc⟩
  · cases ui with
    | none => exact trivial
    | some x =>
      obtain ⟨m, p⟩ := x
      cases p with
      | none => exact ⟨pct_escape_user _ (fun c h => h) m, rfl⟩
      | some p => exact ⟨pct_escape_user _ (fun c h => h) m, pct_escape_user _ (fun c h => .inl h) p⟩

/-- Every path an address can have is one of components. -/
theorem path_comps (P : Bytes) (h : P = [] ∨ P.head? = some 47) : ∃ comps : List Bytes, (∀ x ∈ comps, (47 : UInt8) ∉ x) ∧ P = dirText comps := by
  have key : ∀ (Q x : Bytes), (47 : UInt8) ∉ x → ∃ comps : List Bytes, (∀ x ∈ comps, (47 : UInt8) ∉ x) ∧ 47 :: (x ++ Q) = dirText comps := by
    intro Q
    induction Q with
    | nil => intro x hx; exact ⟨[x], by simpa using hx, by simp [dirText]⟩
    | cons c Q ih =>
      intro x hx
      by_cases hc : c = 47
      · obtain ⟨comps, h1, h2⟩ := ih [] (by simp)
        refine ⟨x :: comps, fun y hy => ?_, ?_⟩
        · rcases List.mem_cons.1 hy with rfl | hy
          · exact hx
          · exact h1 y hy
        · rw [hc, show dirText (x :: comps) = 47 :: x ++ dirText comps by simp [dirText], ← h2]
          simp
      · obtain ⟨comps, h1, h2⟩ := ih (x ++ [c]) (by simp [hx]; exact fun e => hc e.symm)
        exact ⟨comps, h1, by rw [← h2]; simp⟩
  rcases h with rfl | h
  · exact ⟨[], by simp, rfl⟩
  · cases P with
    | nil => cases h
    | cons c P =>
      rw [show c = 47 from Option.some.inj h]
      obtain ⟨comps, h1, h2⟩ := key P [] (by simp)
      exact ⟨comps, h1, h2⟩

/-- `C93_any` is about every address of the grammar: its path always stands for components. -/
theorem valid_comps (a : Address) (ha : a.Valid) : ∃ comps : List Bytes, (∀ x ∈ comps, (47 : UInt8) ∉ x) ∧ Pct PathByte a.path (dirText comps) := by
  obtain ⟨d, hd⟩ := ha.pathText
  obtain ⟨comps, h1, h2⟩ := path_comps d (by
    rcases ha.path with h | h
    · rw [h] at hd; cases hd; exact .inl rfl
    · right
      generalize a.path = t at h hd
      cases hd with
      | nil => cases h
      | byte _ _ => exact h
      | esc _ _ _ => exact absurd h (by simp))
  exact ⟨comps, h1, h2 ▸ hd⟩

/-- A directory with dots, an empty name and credentials. -/
example : playlistURI b!"https://u%3A:p@example.com/a//b/../c/./?q" b!"dir/v 1.ts" = some b!"https://u%3A:p@example.com/a/c/v%201.ts?q" ∧
    follow [] [b!"a", [], b!"b", b!"..", b!"c", b!".", []] = [b!"a", b!"c"] ∧ dirText [b!"a", [], b!"b", b!"..", b!"c", b!".", []] = b!"/a//b/../c/./" := by
  decide +kernel

end Ouro
