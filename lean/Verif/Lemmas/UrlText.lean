import Verif.Lemmas.UrlParts
/-! # The text of a URI that was parsed -/
namespace Ouro
open Spec

theorem user_ok {a : Address} (ha : a.Written) : ∃ ui, parseAuthority (userPart a.user ++ (a.host ++ portPart a.port)) =
    some (ui, a.host ++ portPart a.port) ∧ a.Credentials (ui.map fun x => (x.1, x.2.getD [])) := by
  have hh := parseHost_plain ha.host ha.port
  have h64 : (64 : UInt8) ∉ a.host ++ portPart a.port := fun hm =>
    (hostByte_byte _ ((List.mem_append.mp hm).elim (host_bytes ha.host _) (port_bytes ha.port _))).2.2.2.2.1 rfl
  have hub : ∀ {ok : UInt8 → Prop} {s d : Bytes}, (∀ c, ok c → UserByte c ∨ c = 58) → Pct ok s d →
      ∀ c ∈ s, UserByte c ∨ c = 58 ∨ c = 37 := by
    intro ok s d hok h c hc
    rcases pct_bytes h c hc with h | h | h
    · exact (hok c h).elim .inl (fun h => .inr (.inl h))
    · exact .inr (.inr h)
    · exact .inl (.inl (hex_unreserved c h))
  have hvalid : ∀ s : Bytes, (∀ c ∈ s, UserByte c ∨ c = 58 ∨ c = 37) → validUserinfo s = true :=
    fun s h => List.all_eq_true.mpr fun c hc => (userByte_byte c (h c hc)).2.2.2.2.2
  cases hu : a.user with
  | none =>
    refine ⟨none, ?_, ?_⟩
    · rw [userPart, List.nil_append, parseAuthority, cutLast_none h64, hh]; rfl
    · unfold Address.Credentials; rw [hu]; trivial
  | some np =>
    obtain ⟨n, p⟩ := np
    obtain ⟨dn, hn⟩ := ha.name n p hu
    have hnb := hub (fun c h => Or.inl h) hn
    have hn58 : (58 : UInt8) ∉ n := by
      intro hm
      rcases pct_bytes hn _ hm with h | h | h
      · exact (userByte_ne _ h).1 rfl
      · cases h
      · cases h
    have hnd := pct_unescape (m := .user) (.inr (.inl rfl)) (fun h => (userByte_ne _ h).2 rfl) hn
    cases p with
    | none =>
      refine ⟨some (dn, none), ?_, ?_⟩
      · rw [show userPart (some (n, none)) ++ (a.host ++ portPart a.port) = n ++ 64 :: (a.host ++ portPart a.port) by simp [userPart],
          parseAuthority, cutLast_append n h64]
        simp only [hh, hvalid n hnb, if_true]
        rw [cut_none.mpr hn58]
        simp only [hnd]
        rfl
      · unfold Address.Credentials; rw [hu]; exact ⟨hn, rfl⟩
    | some p =>
      obtain ⟨dp, hp⟩ := ha.password n p hu
      have hpb := hub (fun c h => h) hp
      have hpd := pct_unescape (m := .user) (.inr (.inl rfl))
        (fun h => h.elim (fun h => (userByte_ne _ h).2 rfl) (fun h => by cases h)) hp
      refine ⟨some (dn, some dp), ?_, ?_⟩
      · rw [show userPart (some (n, some p)) ++ (a.host ++ portPart a.port) = (n ++ 58 :: p) ++ 64 :: (a.host ++ portPart a.port) by
            simp [userPart], parseAuthority, cutLast_append _ h64]
        have : validUserinfo (n ++ 58 :: p) = true := hvalid _ fun c hc => by
          rcases List.mem_append.mp hc with hc | hc
          · exact hnb c hc
          · rcases List.mem_cons.mp hc with h | hc
            · exact .inr (.inl h)
            · exact hpb c hc
        simp only [hh, this, if_true]
        rw [cut_append p hn58]
        simp only [hnd, hpd]
      · unfold Address.Credentials; rw [hu]; exact ⟨hn, hp⟩

theorem userPart_bytes {a : Address} (ha : a.Written) {c : UInt8} (hc : c ∈ userPart a.user) :
    isCtl c = false ∧ c ≠ 35 ∧ c ≠ 47 ∧ c ≠ 63 := by
  have key : ∀ c : UInt8, (UserByte c ∨ c = 58 ∨ c = 37) → isCtl c = false ∧ c ≠ 35 ∧ c ≠ 47 ∧ c ≠ 63 := fun c h => by
    have := userByte_byte c h
    exact ⟨this.1, this.2.1, this.2.2.1, this.2.2.2.1⟩
  have name : ∀ {s d : Bytes}, Pct UserByte s d → ∀ c ∈ s, UserByte c ∨ c = 58 ∨ c = 37 := by
    intro s d h c hc
    rcases pct_bytes h c hc with h | h | h
    · exact .inl h
    · exact .inr (.inr h)
    · exact .inl (.inl (hex_unreserved c h))
  cases hu : a.user with
  | none => rw [hu] at hc; cases hc
  | some np =>
    obtain ⟨n, p⟩ := np
    rw [hu] at hc
    obtain ⟨dn, hn⟩ := ha.name n p hu
    cases p with
    | none =>
      rcases List.mem_append.mp hc with hc | hc
      · exact key c (name hn c hc)
      · rw [List.mem_singleton.mp hc]; decide
    | some p =>
      obtain ⟨dp, hp⟩ := ha.password n p hu
      rcases List.mem_append.mp hc with hc | hc
      · rcases List.mem_append.mp hc with hc | hc
        · exact key c (name hn c hc)
        · rcases List.mem_cons.mp hc with rfl | hc
          · decide
          · apply key
            rcases pct_bytes hp c hc with h | h | h
            · exact h.elim .inl (fun h => .inr (.inl h))
            · exact .inr (.inr h)
            · exact .inl (.inl (hex_unreserved c h))
      · rw [List.mem_singleton.mp hc]; decide

theorem pathText_bytes {p d : Bytes} (h : Pct PathByte p d) {c : UInt8} (hc : c ∈ p) : PathByte c ∨ c = 37 := by
  rcases pct_bytes h c hc with h | h | h
  · exact .inl h
  · exact .inr h
  · exact .inl (.inl (hex_unreserved c h))

theorem pathByte_37 : ¬ PathByte 37 := by decide

/-- The text of a path that is kept as it is written. -/
theorem escapedPath_setPath {u : Url} {p d : Bytes} (h : Pct PathByte p d) (hp : p = [] ∨ p.head? = some 47) :
    ∃ raw, u.setPath p = some { u with path := d, rawPath := raw } ∧
      ∀ v : Url, v.path = d → v.rawPath = raw → v.escapedPath = p := by
  have hd := pct_unescape (m := .path) (.inl rfl) pathByte_37 h
  refine ⟨if p = urlEscape .path d then [] else p, by rw [Url.setPath, hd]; rfl, ?_⟩
  intro v hv hr
  have h42 : d ≠ [42] := by
    intro e
    rcases hp with rfl | hp
    · cases h; cases e
    · cases h with
      | nil => cases e
      | byte hc h =>
        simp only [List.head?_cons, Option.some.injEq] at hp
        subst hp
        cases e
      | esc ha hb h => cases hp
  have hval : validEncoded .path p = true :=
    List.all_eq_true.mpr fun c hc => (pathByte_byte c (pathText_bytes h hc)).2.2.2
  rw [Url.escapedPath, hr, hv]
  by_cases he : p = urlEscape .path d
  · rw [if_pos he, if_neg (fun h => h.1 rfl), if_neg h42, he]
  · rw [if_neg he, if_pos]
    refine ⟨?_, hval, hd⟩
    rintro rfl
    cases h
    exact he rfl

/-- The text of a URI with a scheme and a host, without credentials. -/
theorem text_parts {u : Url} (h1 : u.scheme ≠ []) (h2 : u.host ≠ []) (h3 : u.opaq = []) (h4 : u.user = none)
    (h5 : u.escapedPath = [] ∨ u.escapedPath.head? = some 47) :
    u.text = u.scheme ++ b!"://" ++ urlEscape .host u.host ++ u.escapedPath ++ u.back := by
  have hf : u.front = u.scheme ++ b!"://" ++ urlEscape .host u.host := by
    rw [Url.front, if_pos h1, if_pos ⟨.inl h1, fun h => h2 h.2.1⟩, if_pos (.inl h2), h4]
    simp
  have hp : u.pathText = u.escapedPath := by
    rw [Url.pathText, if_neg (fun h => h5.elim h.1 h.2.1), if_neg]
    · rfl
    · rintro ⟨h, -⟩
      rw [hf] at h
      exact h1 (List.append_eq_nil_iff.mp (List.append_eq_nil_iff.mp h).1).1
  rw [Url.text, if_neg (fun h => h h3), hf, hp]

theorem back_query {u : Url} {q : Option Bytes} (h1 : u.forceQuery = decide (q = some [])) (h2 : u.rawQuery = q.getD [])
    (h3 : u.fragment = []) : u.back = queryPart q := by
  rw [Url.back, h1, h2, h3]
  cases q with
  | none => rfl
  | some q =>
    cases q with
    | nil => rfl
    | cons c t => simp [queryPart]

/-- A text without control bytes, `#`, `?` in the right places: the parts of an address. -/
theorem address_parts {a : Address} (ha : a.Written) :
    47 ∉ userPart a.user ++ (a.host ++ portPart a.port) ∧ 63 ∉ userPart a.user ++ (a.host ++ portPart a.port) ∧ 63 ∉ a.path ∧
      35 ∉ userPart a.user ++ (a.host ++ portPart a.port) ++ a.path ++ queryPart a.query ∧
      ∀ c ∈ userPart a.user ++ (a.host ++ portPart a.port) ++ a.path ++ queryPart a.query, isCtl c = false := by
  have hA : ∀ c ∈ userPart a.user ++ (a.host ++ portPart a.port), isCtl c = false ∧ c ≠ 35 ∧ c ≠ 47 ∧ c ≠ 63 := by
    intro c hc
    rcases List.mem_append.mp hc with hc | hc
    · exact userPart_bytes ha hc
    · have := hostByte_byte c ((List.mem_append.mp hc).elim (host_bytes ha.host c) (port_bytes ha.port c))
      exact ⟨this.1, this.2.1, this.2.2.1, this.2.2.2.1⟩
  obtain ⟨d, hd⟩ := ha.pathText
  have hP : ∀ c ∈ a.path, isCtl c = false ∧ c ≠ 35 ∧ c ≠ 63 := fun c hc => by
    have := pathByte_byte c (pathText_bytes hd hc)
    exact ⟨this.1, this.2.1, this.2.2.1⟩
  have hqb : ∀ c : UInt8, 32 ≤ c ∧ c ≠ 127 ∧ c ≠ 35 → isCtl c = false ∧ c ≠ 35 := forall_u8 (by decide +kernel)
  have hQ : ∀ c ∈ queryPart a.query, isCtl c = false ∧ c ≠ 35 := by
    intro c hc
    cases hq : a.query with
    | none => rw [hq] at hc; cases hc
    | some q =>
      rw [hq] at hc
      rcases List.mem_cons.mp hc with rfl | hc
      · decide
      · exact hqb c (ha.query q hq c hc)
  refine ⟨fun h => (hA _ h).2.2.1 rfl, fun h => (hA _ h).2.2.2 rfl, fun h => (hP _ h).2.2 rfl, ?_, ?_⟩
  · intro h
    rcases List.mem_append.mp h with h | h
    · exact (List.mem_append.mp h).elim (fun h => (hA _ h).2.1 rfl) (fun h => (hP _ h).2.1 rfl)
    · exact (hQ _ h).2 rfl
  · intro c h
    rcases List.mem_append.mp h with h | h
    · exact (List.mem_append.mp h).elim (fun h => (hA _ h).1) (fun h => (hP _ h).1)
    · exact (hQ _ h).1

/-- What `url.Parse` makes of an address. -/
theorem parse_address {a : Address} (ha : a.Written) {d : Bytes} (hd : Pct PathByte a.path d) :
    ∃ ui raw, parseUrl a.text = some { withQuery a.scheme a.query with user := ui, host := a.host ++ portPart a.port, path := d, rawPath := raw } ∧
      a.Credentials (ui.map fun x => (x.1, x.2.getD [])) ∧
      (∀ v : Url, v.path = d → v.rawPath = raw → v.escapedPath = a.path) ∧ (a.user = none → ui = none) ∧
      raw = if a.path = urlEscape .path d then [] else a.path := by
  obtain ⟨h1, h2, h3, h4, h5⟩ := address_parts ha
  obtain ⟨ui, hui, hc⟩ := user_ok ha
  obtain ⟨raw, hraw, hp⟩ := escapedPath_setPath (u := { withQuery a.scheme a.query with user := ui, host := a.host ++ portPart a.port }) hd ha.path
  refine ⟨ui, raw, ?_, hc, hp, ?_, ?_⟩
  · have := parseUrl_parts (f := none) ha.scheme h1 h2 ha.path h3 h4 h5
    rw [hui] at this
    rw [show a.text = a.scheme ++ b!"://" ++ (userPart a.user ++ (a.host ++ portPart a.port) ++ a.path ++ queryPart a.query) ++ fragPart none by
      simp [Address.text, fragPart], this]
    show ((Url.setPath _ a.path).bind (putFragment none)) = _
    rw [hraw]
    rfl
  · intro hn
    rw [hn] at hui
    rw [userPart, List.nil_append, parseAuthority, cutLast_none, parseHost_plain ha.host ha.port] at hui
    · simp only [Option.map_some, Option.some.injEq, Prod.mk.injEq] at hui
      exact hui.1.symm
    · exact fun hm => (hostByte_byte _ ((List.mem_append.mp hm).elim (host_bytes ha.host _) (port_bytes ha.port _))).2.2.2.2.1 rfl
  · have hdd := pct_unescape (m := .path) (.inl rfl) pathByte_37 hd
    rw [Url.setPath, hdd] at hraw
    simp only [Option.map_some, Option.some.injEq, Url.mk.injEq, true_and, and_true] at hraw
    exact hraw.symm

theorem target_bytes {a : Address} (ha : a.Written) : ∀ c ∈ a.target, HostByte c := by
  intro c hc
  rcases List.mem_append.mp hc with hc | hc
  · exact host_bytes ha.host c hc
  · rcases List.mem_cons.mp hc with rfl | hc
    · decide
    · cases hp : a.port with
      | none =>
        rw [hp] at hc
        have : ∀ x ∈ b!"554", HostByte x := by decide
        exact this c hc
      | some p =>
        rw [hp] at hc
        exact port_bytes ha.port c (by rw [hp]; exact List.mem_cons_of_mem _ hc)

end Ouro
