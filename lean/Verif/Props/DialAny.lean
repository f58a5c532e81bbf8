import Verif.Props.Dial
/-! # C90: addresses with an empty port, with a fragment or without an authority -/
namespace Ouro
open Spec

theorem parse_fragment {a : Address} (ha : a.Written) (f : Option Bytes) : parseUrl (a.text ++ fragPart f) = (parseUrl a.text).bind (putFragment f) := by
  obtain ⟨h1, h2, h3, h4, h5⟩ := address_parts ha
  have e : a.text = a.scheme ++ b!"://" ++ (userPart a.user ++ (a.host ++ portPart a.port) ++ a.path ++ queryPart a.query) := by simp [Address.text]
  have hf := parseUrl_parts (f := f) ha.scheme h1 h2 ha.path h3 h4 h5
  have hn := parseUrl_parts (f := none) ha.scheme h1 h2 ha.path h3 h4 h5
  rw [show ∀ x : Bytes, x ++ fragPart none = x from List.append_nil] at hn
  rw [e, hf, hn]
  congr 1
  cases (parseAuthority (userPart a.user ++ (a.host ++ portPart a.port))).bind fun r =>
    { withQuery a.scheme a.query with user := r.1, host := r.2 }.setPath a.path with
  | none => rfl
  | some u => rfl

instance (c : UInt8) : Decidable (FragmentByte c) := by unfold FragmentByte; infer_instance

theorem fragmentByte_byte : ∀ c : UInt8, (FragmentByte c ∨ c = 37) → (c ∈ b!"!$&'()*+,;=:@[]%" || !shouldEscape .fragment c) = true :=
  forall_u8 (by decide +kernel)

/-- The text of a fragment that is kept as it is written. -/
theorem escapedFragment_set {u : Url} {f d : Bytes} (h : Pct FragmentByte f d) :
    ∃ raw, u.setFragment f = some { u with fragment := d, rawFragment := raw } ∧
      ∀ v : Url, v.fragment = d → v.rawFragment = raw → v.escapedFragment = f := by
  have hd := pct_unescape (m := .fragment) (.inr (.inr rfl)) (by decide) h
  refine ⟨if f = urlEscape .fragment d then [] else f, by rw [Url.setFragment, hd]; rfl, ?_⟩
  intro v hv hr
  have hval : validEncoded .fragment f = true := List.all_eq_true.mpr fun c hc => fragmentByte_byte c (by
    rcases pct_bytes h c hc with h | h | h
    · exact .inl h
    · exact .inr h
    · exact .inl (.inl (.inl (hex_unreserved c h))))
  rw [Url.escapedFragment, hr, hv]
  by_cases he : f = urlEscape .fragment d
  · rw [if_pos he, if_neg (fun h => h.1 rfl), he]
  · rw [if_neg he, if_pos]
    refine ⟨?_, hval, hd⟩
    rintro rfl
    cases h
    exact he rfl

/-- What of a fragment comes back: an empty one is dropped with its `#`. -/
def keptFragment (f : Option Bytes) : Bytes := if f = some [] then [] else fragPart f

/-- **C90**, exact, for addresses whose port may be empty and which may have a fragment: the client connects to the host and to the port as it is written,
even if it is empty (554 only if there is no colon); it sends the address without the credentials, with that port, and with the fragment, unless that is
empty; and it uses the credentials the address gives. -/
theorem C90_exact (a : Address) (ha : a.Written) (f : Option Bytes) (hf : ∀ t, f = some t → ∃ d, Pct FragmentByte t d) :
    ∃ d, dial (a.text ++ fragPart f) = some d ∧ d.addr = a.host ++ 58 :: a.port.getD b!"554" ∧
      d.base = a.scheme ++ b!"://" ++ (a.host ++ 58 :: a.port.getD b!"554") ++ a.path ++ queryPart a.query ++ keptFragment f ∧ a.Credentials d.user := by
  obtain ⟨p, hp⟩ := ha.pathText
  obtain ⟨ui, raw, h1, h2, h3, -, -⟩ := parse_address ha hp
  have ht : dialAddr (a.host ++ portPart a.port) = a.target := dialAddr_plain ha.host ha.port
  have hne : a.target ≠ [] := by rw [Address.target]; simp
  have hesc : urlEscape .host a.target = a.target := escape_plain fun c hc => (hostByte_byte c (target_bytes ha c hc)).2.2.2.2.2.2
  have main : ∀ fr rf : Bytes, (∀ v : Url, v.fragment = fr → v.rawFragment = rf → (if v.fragment ≠ [] then 35 :: v.escapedFragment else []) = keptFragment f) →
      Url.text { withQuery a.scheme a.query with host := a.target, path := p, rawPath := raw, fragment := fr, rawFragment := rf } =
        a.scheme ++ b!"://" ++ a.target ++ a.path ++ queryPart a.query ++ keptFragment f := by
    intro fr rf hk
    have he : Url.escapedPath { withQuery a.scheme a.query with host := a.target, path := p, rawPath := raw, fragment := fr, rawFragment := rf } = a.path :=
      h3 _ rfl rfl
    rw [text_parts (scheme_ne ha.scheme) hne rfl rfl (by rw [he]; exact ha.path), he, hesc, Url.back, hk _ rfl rfl]
    have hq := back_query (u := withQuery a.scheme a.query) (q := a.query) rfl rfl rfl
    rw [Url.back] at hq
    rw [← hq]
    simp [withQuery]
  rw [dial, parse_fragment ha, h1]
  show ∃ d, (match putFragment f _ with | none => none | some u => _) = some d ∧ _
  rcases f with _ | f
  · refine ⟨_, rfl, ht, ?_, h2⟩
    simp only [ht]
    exact main [] [] fun v e _ => by rw [e]; rfl
  · by_cases h0 : f = []
    · subst h0
      refine ⟨_, rfl, ht, ?_, h2⟩
      simp only [ht]
      exact main [] [] fun v e _ => by rw [e]; rfl
    · obtain ⟨d, hd⟩ := hf f rfl
      obtain ⟨rf, hs, hk⟩ := escapedFragment_set (u := { withQuery a.scheme a.query with user := ui, host := a.host ++ portPart a.port, path := p, rawPath := raw }) hd
      rw [putFragment, if_neg (show ¬ (some f).getD [] = [] from h0), show (some f).getD [] = f from rfl, hs]
      refine ⟨_, rfl, ht, ?_, h2⟩
      simp only [ht]
      refine main d rf fun v e1 e2 => ?_
      have hd0 : d ≠ [] := by
        rintro rfl
        cases hd
        exact h0 rfl
      rw [if_pos (by rw [e1]; exact hd0), hk v e1 e2, keptFragment, if_neg (fun h => h0 (Option.some.inj h))]
      rfl

/-- The port an address means: an empty one is the same as none (RFC 3986, 3.2.3). -/
def meantPort (p : Option Bytes) : Bytes := if p = none ∨ p = some [] then b!"554" else p.getD []

/-- **C90**, exact: the client connects to the port that is meant if and only if the port is not left empty after its colon. -/
theorem C90_port_iff (a : Address) (ha : a.Written) (f : Option Bytes) (hf : ∀ t, f = some t → ∃ d, Pct FragmentByte t d) {d : Dialed}
    (hd : dial (a.text ++ fragPart f) = some d) : d.addr = a.host ++ 58 :: meantPort a.port ↔ a.port ≠ some [] := by
  obtain ⟨d', h1, h2, -, -⟩ := C90_exact a ha f hf
  rw [hd] at h1
  cases h1
  rw [h2]
  unfold meantPort
  constructor
  · intro h e
    rw [e] at h
    have := List.append_cancel_left h
    simp at this
  · intro h
    cases hp : a.port with
    | none => rfl
    | some p =>
      rw [hp] at h
      rw [if_neg (by rintro (e | e); cases e; exact h e)]
      rfl

/-- **C90**, exact: the fragment, which is no business of the server (RFC 3986, 3.5), stays out of the requests if and only if there is none or it is empty. -/
theorem C90_fragment_iff (a : Address) (ha : a.Written) (f : Option Bytes) (hf : ∀ t, f = some t → ∃ d, Pct FragmentByte t d) {d : Dialed}
    (hd : dial (a.text ++ fragPart f) = some d) :
    d.base = a.scheme ++ b!"://" ++ d.addr ++ a.path ++ queryPart a.query ↔ f = none ∨ f = some [] := by
  obtain ⟨d', h1, h2, h3, -⟩ := C90_exact a ha f hf
  rw [hd] at h1
  cases h1
  rw [h3, h2]
  unfold keptFragment
  constructor
  · intro h
    have := List.append_right_eq_self.mp h
    rcases f with _ | f
    · exact .inl rfl
    · by_cases h0 : f = []
      · exact .inr (by rw [h0])
      · rw [if_neg (fun e => h0 (Option.some.inj e))] at this
        cases this
  · rintro (rfl | rfl)
    · simp [fragPart]
    · simp

/-- **C90**, for every address without `//`: whatever it names, it is accepted, and the client connects to port 554 of its own machine. -/
theorem C90_no_host (s rest : Bytes) (hs : Scheme s) (h0 : rest ≠ []) (hr : rest.head? ≠ some 47)
    (hb : ∀ c ∈ rest, 32 ≤ c ∧ c ≠ 127 ∧ c ≠ 35 ∧ c ≠ 63) : dial (s ++ 58 :: rest) = some ⟨b!":554", s ++ 58 :: rest, none⟩ := by
  have hctl : ∀ c : UInt8, 32 ≤ c ∧ c ≠ 127 ∧ c ≠ 35 ∧ c ≠ 63 → isCtl c = false ∧ c ≠ 35 ∧ c ≠ 63 := forall_u8 (by decide +kernel)
  have hany : (s ++ 58 :: rest).any isCtl = false := by
    rw [List.any_eq_false]
    intro c hc
    rcases List.mem_append.mp hc with hc | hc
    · rw [(scheme_bytes hs c hc).2.2.1]; decide
    · rcases List.mem_cons.mp hc with rfl | hc
      · decide
      · rw [(hctl c (hb c hc)).1]; decide
  have h35 : (35 : UInt8) ∉ s ++ 58 :: rest := by
    intro hc
    rcases List.mem_append.mp hc with hc | hc
    · exact (scheme_bytes hs _ hc).2.2.2 rfl
    · rcases List.mem_cons.mp hc with h | hc
      · cases h
      · exact (hb _ hc).2.2.1 rfl
  have h63 : (63 : UInt8) ∉ rest := fun hc => (hb _ hc).2.2.2 rfl
  have hne : s ++ 58 :: rest ≠ [42] := by
    intro e
    have := congrArg List.length e
    cases rest with
    | nil => exact h0 rfl
    | cons c t => simp at this; omega
  have hp : parseUrl (s ++ 58 :: rest) = some { scheme := s, opaq := rest } := by
    rw [parseUrl, cutAt_none h35, parseUrl0, hany]
    simp only [Bool.false_eq_true, if_false]
    rw [if_neg hne, getScheme_plain hs]
    simp only
    rw [scheme_lower hs, if_neg (fun h => h63 (List.mem_of_getLast? h.1)), cutAt_none h63, parseRest, if_pos ⟨hr, scheme_ne hs⟩]
    rfl
  rw [dial, hp]
  simp only [Option.map_none, Option.some.injEq, Dialed.mk.injEq]
  refine ⟨by decide, ?_, trivial⟩
  rw [Url.text, if_pos h0, if_pos (scheme_ne hs)]
  simp [Url.back]

/-- The hypotheses of `C90_exact`: the port is left empty, and there is a fragment. -/
example : ∃ a : Address, a.Written ∧ a.port = some [] ∧ a.text ++ fragPart (some b!"t=1?2") = b!"rtsp://cam:/x#t=1?2" ∧ ∃ d, Pct FragmentByte b!"t=1?2" d := by
  refine ⟨⟨b!"rtsp", none, b!"cam", some [], b!"/x", none⟩, ⟨⟨114, b!"tsp", rfl, by decide, by decide⟩, fun n p h => (by cases h), fun n p h => (by cases h),
    .inl ⟨by decide, by decide⟩, fun p h => ?_, .inr rfl, ⟨b!"/x", .byte (by decide) (.byte (by decide) .nil)⟩, fun q h => (by cases h)⟩, rfl, by decide, ?_⟩
  · cases h
    intro c hc
    cases hc
  · exact ⟨b!"t=1?2", .byte (by decide) (.byte (by decide) (.byte (by decide) (.byte (by decide) (.byte (by decide) .nil))))⟩

example : dial b!"rtsp://cam:/x#t=1?2" = some ⟨b!"cam:", b!"rtsp://cam:/x#t=1?2", none⟩ := by decide +kernel
example : dial b!"rtsp://cam/x#" = some ⟨b!"cam:554", b!"rtsp://cam:554/x", none⟩ := by decide +kernel

/-- The hypotheses of `C90_no_host`. -/
example : Scheme b!"rtsp" ∧ b!"cam/x" ≠ [] ∧ (b!"cam/x").head? ≠ some 47 ∧ ∀ c ∈ b!"cam/x", 32 ≤ c ∧ c ≠ 127 ∧ c ≠ 35 ∧ c ≠ 63 :=
  ⟨⟨114, b!"tsp", rfl, by decide, by decide⟩, by decide, by decide, by decide⟩

end Ouro
