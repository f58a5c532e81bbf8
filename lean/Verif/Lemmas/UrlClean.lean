import Verif.Lemmas.UrlText
/-! # No control bytes in the text of a URI -/
namespace Ouro
open Spec

/-- A byte that is visible, or not ASCII. -/
def Visible (c : UInt8) : Prop := 33 ≤ c ∧ c ≠ 127

instance : DecidablePred Visible := fun c => by unfold Visible; infer_instance

theorem visible_kept : ∀ c : UInt8, ((shouldEscape .path c = false ∨ shouldEscape .user c = false) ∨
    (shouldEscape .host c = false ∨ shouldEscape .zone c = false) ∨ shouldEscape .fragment c = false) → Visible c :=
  forall_u8 (by decide +kernel)

theorem visible_mode {m : UrlMode} {c : UInt8} (h : shouldEscape m c = false) : Visible c := by
  cases m
  · exact visible_kept c (.inl (.inl h))
  · exact visible_kept c (.inl (.inr h))
  · exact visible_kept c (.inr (.inl (.inl h)))
  · exact visible_kept c (.inr (.inl (.inr h)))
  · exact visible_kept c (.inr (.inr h))

theorem visible_hex : ∀ n : Fin 16, Visible (upperHex n.val) := by decide

theorem visible_escape (m : UrlMode) (s : Bytes) : ∀ c ∈ urlEscape m s, Visible c := by
  intro c hc
  obtain ⟨x, -, hx⟩ := List.mem_flatMap.mp hc
  rw [escape1] at hx
  split at hx
  · simp only [List.mem_cons, List.not_mem_nil, or_false] at hx
    rcases hx with rfl | rfl | rfl
    · decide
    · exact visible_hex ⟨x.toNat / 16, by have := x.toNat_lt; omega⟩
    · exact visible_hex ⟨x.toNat % 16, by omega⟩
  · rename_i h
    rw [List.mem_singleton.mp hx]
    exact visible_mode (by simpa using h)

theorem visible_valid {m : UrlMode} {s : Bytes} (h : validEncoded m s = true) : ∀ c ∈ s, Visible c := by
  intro c hc
  have := List.all_eq_true.mp h c hc
  simp only [Bool.or_eq_true, decide_eq_true_eq, Bool.not_eq_true'] at this
  rcases this with h | h
  · have : ∀ x ∈ b!"!$&'()*+,;=:@[]%", Visible x := by decide
    exact this c h
  · exact visible_mode h

theorem visible_path (u : Url) : ∀ c ∈ u.escapedPath, Visible c := by
  rw [Url.escapedPath]
  split
  · rename_i h; exact visible_valid h.2.1
  · split
    · decide
    · exact visible_escape _ _

theorem visible_fragment (u : Url) : ∀ c ∈ u.escapedFragment, Visible c := by
  rw [Url.escapedFragment]
  split
  · rename_i h; exact visible_valid h.2.1
  · exact visible_escape _ _

theorem visible_user (u : Userinfo) : ∀ c ∈ userText u, Visible c := by
  intro c hc
  rcases List.mem_append.mp hc with hc | hc
  · exact visible_escape _ _ c hc
  · cases h : u.2 with
    | none => rw [h] at hc; cases hc
    | some p =>
      rw [h] at hc
      rcases List.mem_cons.mp hc with rfl | hc
      · decide
      · exact visible_escape _ _ c hc

/-- Everything is visible but the scheme, the opaque part and the query, which are copied. -/
theorem visible_text (u : Url) : ∀ c ∈ u.text, Visible c ∨ c ∈ u.scheme ∨ c ∈ u.opaq ∨ c ∈ u.rawQuery := by
  have hs : ∀ c ∈ (if u.scheme ≠ [] then u.scheme ++ [58] else []), Visible c ∨ c ∈ u.scheme ∨ c ∈ u.opaq ∨ c ∈ u.rawQuery := by
    intro c hc
    split at hc
    · rcases List.mem_append.mp hc with hc | hc
      · exact .inr (.inl hc)
      · rw [List.mem_singleton.mp hc]; exact .inl (by decide)
    · cases hc
  have hf : ∀ c ∈ u.front, Visible c ∨ c ∈ u.scheme ∨ c ∈ u.opaq ∨ c ∈ u.rawQuery := by
    intro c hc
    rw [Url.front] at hc
    rcases List.mem_append.mp hc with hc | hc
    · exact hs c hc
    · left
      split at hc
      · rcases List.mem_append.mp hc with hc | hc
        · rcases List.mem_append.mp hc with hc | hc
          · split at hc
            · have : ∀ x ∈ b!"//", Visible x := by decide
              exact this c hc
            · cases hc
          · cases hu : u.user with
            | none => rw [hu] at hc; cases hc
            | some ui =>
              rw [hu] at hc
              rcases List.mem_append.mp hc with hc | hc
              · exact visible_user ui c hc
              · rw [List.mem_singleton.mp hc]; decide
        · exact visible_escape _ _ c hc
      · cases hc
  have hp : ∀ c ∈ u.pathText, Visible c := by
    intro c hc
    rw [Url.pathText] at hc
    rcases List.mem_append.mp hc with hc | hc
    · rcases List.mem_append.mp hc with hc | hc
      · split at hc
        · rw [List.mem_singleton.mp hc]; decide
        · cases hc
      · split at hc
        · have : ∀ x ∈ b!"./", Visible x := by decide
          exact this c hc
        · cases hc
    · exact visible_path u c hc
  intro c hc
  rw [Url.text] at hc
  rcases List.mem_append.mp hc with hc | hc
  · split at hc
    · rcases List.mem_append.mp hc with hc | hc
      · exact hs c hc
      · exact .inr (.inr (.inl hc))
    · rcases List.mem_append.mp hc with hc | hc
      · exact hf c hc
      · exact .inl (hp c hc)
  · rw [Url.back] at hc
    rcases List.mem_append.mp hc with hc | hc
    · split at hc
      · rcases List.mem_cons.mp hc with rfl | hc
        · exact .inl (by decide)
        · exact .inr (.inr (.inr hc))
      · cases hc
    · split at hc
      · rcases List.mem_cons.mp hc with rfl | hc
        · exact .inl (by decide)
        · exact .inl (visible_fragment u c hc)
      · cases hc

/-! ## What `url.Parse` lets into the parts that are copied -/

def SchemeByte (c : UInt8) : Prop := isAlnum c = true ∨ c ∈ b!"+-."

theorem schemeLoop_bytes {acc s a r : Bytes} (h : schemeLoop acc s = some (a, r)) (hacc : ∀ c ∈ acc, SchemeByte c) :
    (∀ c ∈ a, SchemeByte c) ∧ ∀ c ∈ r, c ∈ s := by
  induction s generalizing acc with
  | nil => cases h
  | cons c s ih =>
    rw [schemeLoop] at h
    split at h
    · rename_i hc
      obtain ⟨h1, h2⟩ := ih h fun x hx => (List.mem_cons.mp hx).elim (fun e => e ▸ hc) (hacc x)
      exact ⟨h1, fun x hx => List.mem_cons_of_mem _ (h2 x hx)⟩
    · split at h
      · simp only [Option.some.injEq, Prod.mk.injEq] at h
        obtain ⟨rfl, rfl⟩ := h
        exact ⟨fun x hx => hacc x (List.mem_reverse.mp hx), fun x hx => List.mem_cons_of_mem _ hx⟩
      · cases h

theorem getScheme_bytes {s a r : Bytes} (h : getScheme s = some (a, r)) : (∀ c ∈ a, SchemeByte c) ∧ ∀ c ∈ r, c ∈ s := by
  cases s with
  | nil => simp only [getScheme, Option.some.injEq, Prod.mk.injEq] at h; obtain ⟨rfl, rfl⟩ := h; exact ⟨fun c hc => (by cases hc), fun c hc => hc⟩
  | cons c s =>
    rw [getScheme] at h
    split at h
    · rename_i hl
      cases hsl : schemeLoop [c] s with
      | none =>
        rw [hsl] at h
        simp only [Option.some.injEq, Prod.mk.injEq] at h
        obtain ⟨rfl, rfl⟩ := h
        exact ⟨fun c hc => (by cases hc), fun c hc => hc⟩
      | some p =>
        obtain ⟨a', r'⟩ := p
        rw [hsl] at h
        simp only [Option.some.injEq, Prod.mk.injEq] at h
        obtain ⟨rfl, rfl⟩ := h
        obtain ⟨h1, h2⟩ := schemeLoop_bytes hsl fun x hx => by
          rw [List.mem_singleton.mp hx]; exact .inl (by rw [isAlnum, hl]; rfl)
        exact ⟨h1, fun x hx => List.mem_cons_of_mem _ (h2 x hx)⟩
    · split at h
      · cases h
      · simp only [Option.some.injEq, Prod.mk.injEq] at h
        obtain ⟨rfl, rfl⟩ := h
        exact ⟨fun c hc => (by cases hc), fun c hc => hc⟩

theorem schemeByte_lower : ∀ c : UInt8, (isAlnum c = true ∨ c ∈ b!"+-.") → c < 128 ∧ Visible (lower1 c) := forall_u8 (by decide +kernel)

theorem visible_scheme {s : Bytes} (h : ∀ c ∈ s, SchemeByte c) : ∀ c ∈ toLower s, Visible c := by
  rw [toLower_ascii fun c hc => (schemeByte_lower c (h c hc)).1]
  intro c hc
  obtain ⟨x, hx, rfl⟩ := List.mem_map.mp hc
  exact (schemeByte_lower x (h x hx)).2

theorem setPath_keeps {u v : Url} {p : Bytes} (h : u.setPath p = some v) :
    v.scheme = u.scheme ∧ v.opaq = u.opaq ∧ v.rawQuery = u.rawQuery ∧ v.forceQuery = u.forceQuery := by
  rw [Url.setPath] at h
  cases hu : urlUnescape .path p with
  | none => rw [hu] at h; cases h
  | some d => rw [hu] at h; cases h; exact ⟨rfl, rfl, rfl, rfl⟩

theorem parseRest_keeps {u v : Url} {rest : Bytes} (h : parseRest u rest = some v) :
    v.scheme = u.scheme ∧ (v.opaq = u.opaq ∨ v.opaq = rest) ∧ v.rawQuery = u.rawQuery := by
  rw [parseRest] at h
  split at h
  · cases h; exact ⟨rfl, .inr rfl, rfl⟩
  · split at h
    · cases h
    · split at h
      · cases ha : parseAuthority ((rest.drop 2).takeWhile (· ≠ 47)) with
        | none => rw [ha] at h; cases h
        | some r =>
          rw [ha] at h
          obtain ⟨h1, h2, h3, -⟩ := setPath_keeps h
          exact ⟨h1, .inl h2, h3⟩
      · split at h
        · obtain ⟨h1, h2, h3, -⟩ := setPath_keeps h
          exact ⟨h1, .inl h2, h3⟩
        · obtain ⟨h1, h2, h3, -⟩ := setPath_keeps h
          exact ⟨h1, .inl h2, h3⟩

theorem cutAt_mem {c : UInt8} {s : Bytes} : (∀ x ∈ (cutAt c s).1, x ∈ s) ∧ ∀ x ∈ (cutAt c s).2, x ∈ s := by
  cases h : cut c s with
  | none => rw [cutAt, h]; exact ⟨fun x hx => hx, fun x hx => by cases hx⟩
  | some r =>
    obtain ⟨a, b⟩ := r
    rw [cutAt, h, (cut_some h).1]
    exact ⟨fun x hx => List.mem_append_left _ hx, fun x hx => List.mem_append_right _ (List.mem_cons_of_mem _ hx)⟩

/-- What is copied is text of the URI before the fragment, and that has no control bytes. -/
theorem parseUrl_copied {s : Bytes} {u : Url} (h : parseUrl s = some u) : (∀ c ∈ u.scheme, Visible c) ∧
    (∀ c ∈ u.opaq, c ∈ s ∧ isCtl c = false) ∧ ∀ c ∈ u.rawQuery, c ∈ s ∧ isCtl c = false := by
  have key : ∀ (t : Bytes) (v : Url), parseUrl0 t = some v → (∀ c ∈ v.scheme, Visible c) ∧
      (∀ c ∈ v.opaq, c ∈ t ∧ isCtl c = false) ∧ ∀ c ∈ v.rawQuery, c ∈ t ∧ isCtl c = false := by
    intro t v h
    rw [parseUrl0] at h
    split at h
    · cases h
    · rename_i hn
      have hn : ∀ c ∈ t, c ∈ t ∧ isCtl c = false := fun c hc => ⟨hc, by
        cases hx : isCtl c with
        | false => rfl
        | true => exact absurd (List.any_eq_true.mpr ⟨c, hc, hx⟩) hn⟩
      split at h
      · cases h
        exact ⟨fun c hc => (by cases hc), fun c hc => (by cases hc), fun c hc => (by cases hc)⟩
      · cases hg : getScheme t with
        | none => rw [hg] at h; cases h
        | some r =>
          obtain ⟨sc, rest⟩ := r
          rw [hg] at h
          obtain ⟨h1, h2⟩ := getScheme_bytes hg
          simp only at h
          split at h
          · obtain ⟨k1, k2, k3⟩ := parseRest_keeps h
            refine ⟨by rw [k1]; exact visible_scheme h1, ?_, by rw [k3]; exact fun c hc => by cases hc⟩
            rcases k2 with k2 | k2
            · rw [k2]; exact fun c hc => by cases hc
            · rw [k2]; exact fun c hc => hn c (h2 c (List.dropLast_subset _ hc))
          · obtain ⟨k1, k2, k3⟩ := parseRest_keeps h
            refine ⟨by rw [k1]; exact visible_scheme h1, ?_, by rw [k3]; exact fun c hc => hn c (h2 c (cutAt_mem.2 c hc))⟩
            rcases k2 with k2 | k2
            · rw [k2]; exact fun c hc => by cases hc
            · rw [k2]; exact fun c hc => hn c (h2 c (cutAt_mem.1 c hc))
  rw [parseUrl] at h
  cases h0 : parseUrl0 (cutAt 35 s).1 with
  | none => rw [h0] at h; cases h
  | some v =>
    rw [h0] at h
    simp only at h
    obtain ⟨h1, h2, h3⟩ := key _ v h0
    have hv : (∀ c ∈ v.scheme, Visible c) ∧
        (∀ c ∈ v.opaq, c ∈ s ∧ isCtl c = false) ∧ ∀ c ∈ v.rawQuery, c ∈ s ∧ isCtl c = false :=
      ⟨h1, fun c hc => ⟨cutAt_mem.1 c (h2 c hc).1, (h2 c hc).2⟩, fun c hc => ⟨cutAt_mem.1 c (h3 c hc).1, (h3 c hc).2⟩⟩
    split at h
    · cases h; exact hv
    · rw [Url.setFragment] at h
      cases hf : urlUnescape .fragment (cutAt 35 s).2 with
      | none => rw [hf] at h; cases h
      | some f => rw [hf] at h; cases h; exact hv

theorem ctl_iff : ∀ c : UInt8, isCtl c = false ↔ 32 ≤ c ∧ c ≠ 127 := forall_u8 (by decide +kernel)

theorem visible_ctl {c : UInt8} (h : Visible c) : 32 ≤ c ∧ c ≠ 127 :=
  (ctl_iff c).mp ((show ∀ c : UInt8, Visible c → isCtl c = false from forall_u8 (by decide +kernel)) c h)

end Ouro
