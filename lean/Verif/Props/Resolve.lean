import Verif.Spec.Resolve
import Verif.Props.Commands
import Verif.Props.Dial
/-! # C95: control URLs are resolved against the base of the description -/
namespace Ouro
open Spec

theorem opened_base {w : World} {s : Sess} {uri : Bytes} {proto : Proto} {user : Option (Bytes × Bytes)} {ops : List Op} (hop : ∀ op ∈ ops, Plain op)
    (h : run w newSession (.open_ uri proto user :: ops) = .ok s) : s.baseURI = uri ∧ s.proto = proto := by
  unfold run at h
  cases hs : step w newSession (.open_ uri proto user) with
  | error p => rw [hs] at h; cases h
  | ok r =>
    obtain ⟨t, e⟩ := r
    rw [hs] at h
    have h1 := run_static ops (fun op ho => plain_not_open (hop op ho)) h
    have hs : command w { newSession with opened := true, baseURI := uri, proto := proto, user := user } verbOptions uri [] = .ok (t, e) := hs
    have h2 := command_static hs
    exact ⟨h1.2.2.1.trans h2.2.2.1, h1.2.1.trans h2.2.1⟩

theorem stream_relative {base c : Bytes} (hc : RelativePath c) : streamURI base c = (if c = b!"*" then base else base ++ b!"/" ++ c) := by
  unfold streamURI
  rw [if_neg]
  intro h
  obtain ⟨t, rfl⟩ := List.isPrefixOf_iff_prefix.1 h
  apply hc.scheme
  simp

/-- C95, exactly: the SETUP for a stream with a relative control URL goes to the URI this stands for if and only if the base of the description, up to the
last slash of its path, is the address that was opened (as it is sent: without credentials, with its port) and a slash. Whatever the answer to DESCRIBE
says about the base is not looked at. Required: writing works, the description can be parsed (see C37). -/
theorem C95_relative_iff (w : World) (hw : ∀ o b, w.write o b = .ok) (base : Bytes) (proto : Proto) (user : Option (Bytes × Bytes)) (ops : List Op)
    (hop : ∀ op ∈ ops, Plain op) (s : Sess) (hr : run w newSession (.open_ base proto user :: ops) = .ok s)
    (rsp : Response) (req : Request) (hp : pending rsp.cseq s.out = some req) (hv : req.verb = b!"DESCRIBE") (h401 : rsp.statusCode ≠ 401)
    (body : Bytes) (hb : rsp.body = some body) (hbare : ∀ line ∈ split 10 body, trimSpace line ≠ b!"m=video")
    (hlen : (videoSections (split 10 body)).length < 2 ^ 60) (b : Address) (hbase : descriptionBase base rsp.header = b.text) :
    ∃ (t : Sess) (qs : List Request), step w s (.item (.response rsp)) = .ok (t, none) ∧ t.out = (qs.map fun q => Out.sent false q .ok).reverse ++ .got rsp :: s.out ∧
      qs.length = (videoSections (split 10 body)).length ∧
      ∀ (i : Nat) (sec : List Bytes) (q : Request), (videoSections (split 10 body))[i]? = some sec → qs[i]? = some q →
        ∃ m, sdpParse (unlines sec) = .ok [m] ∧
          (RelativePath m.control → m.control ≠ b!"*" → (q.uri = b.folder ++ m.control ↔ b.folder = base ++ b!"/")) ∧
          (b!"rtsp://" <+: m.control → q.uri = m.control) := by
  obtain ⟨t, qs, h1, h2, h3, h4⟩ := C77_setups_partial w hw s (plain_open hop hr) rsp req hp hv h401 body hb hbare hlen
  refine ⟨t, qs, h1, h2, h3, ?_⟩
  intro i sec q hs hq
  obtain ⟨m, k1, _, _, k4, _⟩ := h4 i sec q hs hq
  rw [(opened_base hop hr).1] at k4
  refine ⟨m, k1, ?_, ?_⟩
  · intro hrel hstar
    rw [k4.mpr hstar, stream_relative hrel, if_neg hstar]
    constructor
    · intro h; exact (List.append_cancel_right h).symm
    · intro h; rw [h]
  · intro hpre
    have hne : m.control ≠ b!"*" := by
      intro h
      rw [h] at hpre
      exact absurd hpre (by decide)
    rw [k4.mpr hne]
    unfold streamURI
    rw [if_pos (List.isPrefixOf_iff_prefix.2 hpre)]

theorem upToSlash_slash (p : Bytes) : upToSlash (p ++ [47]) = p ++ [47] := by
  unfold upToSlash
  rw [List.reverse_append]
  simp

theorem upToSlash_sub (p : Bytes) : ∀ c ∈ upToSlash p, c ∈ p := by
  intro c hc
  unfold upToSlash at hc
  have := List.dropWhile_subset _ (List.mem_reverse.1 hc)
  simpa using this

/-- The address as it is sent to the server. -/
def Address.sentAs (a : Address) : Address := { a with user := none, port := some (a.port.getD b!"554") }

theorem sentAs_text (a : Address) : (Address.sentAs a).text = a.public := by
  unfold Address.text Address.sentAs Address.public Address.target
  simp [userPart, portPart]

theorem sentAs_valid {a : Address} (h : a.Valid) : (Address.sentAs a).Valid where
  scheme := h.scheme
  name := by intro n p h; cases h
  password := by intro n p h; cases h
  host := h.host
  port := by
    intro p hp
    injection hp with hp
    subst hp
    cases hq : a.port with
    | none => exact ⟨by decide, by decide⟩
    | some q => exact h.port q hq
  path := h.path
  pathText := h.pathText
  query := h.query

/-- C95, what holds: with an address without a query, a server that says that the base is this address and a slash (as most do) is asked for the right
streams. -/
theorem C95_slash_partial (a : Address) (ha : a.Valid) (hq : a.query = none) (d : Dialed) (hd : dial a.text = some d) :
    ∃ b : Address, b.Valid ∧ b.text = d.base ++ b!"/" ∧ b.folder = d.base ++ b!"/" := by
  obtain ⟨d', h1, _, h2, _⟩ := C90_address_partial a ha
  rw [hd] at h1; injection h1 with h1; subst h1
  have hv := sentAs_valid ha
  refine ⟨{ Address.sentAs a with path := a.path ++ [47] }, ⟨hv.scheme, hv.name, hv.password, hv.host, hv.port, ?_, ?_, hv.query⟩, ?_, ?_⟩
  · right
    rcases ha.path with h | h
    · rw [h]; rfl
    · dsimp only
      cases hp : a.path with
      | nil => rfl
      | cons x t => rw [hp] at h; exact h
  · obtain ⟨p, hp⟩ := ha.pathText
    refine ⟨p ++ [47], ?_⟩
    dsimp only
    clear h2 hd hv
    revert hp
    generalize a.path = q
    intro hp
    induction hp with
    | nil => exact .byte (by decide) .nil
    | byte h _ ih => exact .byte h ih
    | esc h1 h2 _ ih => exact .esc h1 h2 ih
  · rw [h2]
    unfold Address.text Address.sentAs Address.public Address.target
    simp [userPart, portPart, queryPart, hq]
  · rw [h2]
    unfold Address.folder Address.sentAs Address.public Address.target
    rw [if_neg (by simp), upToSlash_slash]
    simp [userPart, portPart, queryPart, hq]

theorem folder_query {b : Address} (hb : b.Valid) : (63 : UInt8) ∉ b.folder := by
  unfold Address.folder
  intro hm
  simp only [List.mem_append] at hm
  rcases hm with ((((hm | hm) | hm) | hm) | hm) | hm
  · obtain ⟨c, t, hs, hc, ht⟩ := hb.scheme
    rw [hs] at hm
    rcases List.mem_cons.1 hm with rfl | hm
    · revert hc; decide
    · have := ht _ hm; revert this; decide
  · revert hm; decide
  · exact (userPart_bytes hb.written hm).2.2.2 rfl
  · exact (hostByte_byte _ (host_bytes hb.host _ hm)).2.2.2.1 rfl
  · cases hp : b.port with
    | none => rw [hp] at hm; cases hm
    | some p =>
      rw [hp] at hm
      rcases List.mem_cons.1 hm with h | h
      · revert h; decide
      · have := (hb.port p hp).2 _ h; revert this; decide
  · obtain ⟨p, hp⟩ := hb.pathText
    split at hm
    · revert hm; decide
    · exact (pathByte_byte _ (pathText_bytes hp (upToSlash_sub _ _ hm))).2.2.1 rfl

/-- C95 fails for every address with a query: the control URL is appended to the query, and no base the server can give makes that right. -/
theorem C95_query_refuted (a : Address) (ha : a.Valid) (hq : a.query ≠ none) (d : Dialed) (hd : dial a.text = some d) (b : Address) (hb : b.Valid) :
    b.folder ≠ d.base ++ b!"/" := by
  obtain ⟨d', h1, _, h2, _⟩ := C90_address_partial a ha
  rw [hd] at h1; injection h1 with h1; subst h1
  intro h
  apply folder_query hb
  rw [h, h2]
  unfold Address.public
  cases hx : a.query with
  | none => exact absurd hx hq
  | some q => simp [queryPart]

/-- C95, a server that does not say what the base is: then it is the address asked for, and the right streams are set up exactly if that address has neither a
path nor a query. -/
theorem C95_no_base_iff (a : Address) (ha : a.Valid) (d : Dialed) (hd : dial a.text = some d) (b : Address) (hb : b = Address.sentAs a) :
    b.Valid ∧ b.text = d.base ∧ (b.folder = d.base ++ b!"/" ↔ a.path = [] ∧ a.query = none) := by
  obtain ⟨d', h1, _, h2, _⟩ := C90_address_partial a ha
  rw [hd] at h1; injection h1 with h1; subst h1
  subst hb
  refine ⟨sentAs_valid ha, by rw [sentAs_text, h2], ?_⟩
  have hf : (Address.sentAs a).folder = a.scheme ++ b!"://" ++ a.target ++ (if a.path = [] then [47] else upToSlash a.path) := by
    unfold Address.folder Address.sentAs Address.target
    simp [userPart, portPart]
  rw [hf, h2]
  unfold Address.public
  rw [List.append_assoc _ _ b!"/", List.append_assoc (a.scheme ++ b!"://" ++ a.target) a.path]
  constructor
  · intro h
    have h := List.append_cancel_left h
    by_cases hp : a.path = []
    · refine ⟨hp, ?_⟩
      rw [if_pos hp, hp] at h
      cases hq : a.query with
      | none => rfl
      | some q => rw [hq] at h; injection h with h _; exact absurd h (by decide)
    · rw [if_neg hp] at h
      have hl : (upToSlash a.path).length ≤ a.path.length := by
        unfold upToSlash
        rw [List.length_reverse]
        exact Nat.le_trans (List.IsSuffix.length_le (List.dropWhile_suffix _)) (by simp)
      have := congrArg List.length h
      simp only [List.length_append, List.length_cons, List.length_nil] at this
      omega
  · rintro ⟨hp, hq⟩
    rw [hp, hq, if_pos rfl]
    rfl

/-- C95 fails for other kinds of references: an absolute path (RFC 3986, 4.2) and absolute URIs whose scheme is in capitals (schemes are the same in
either case) or another one are all appended to the address. -/
theorem C95_other_refuted : ∃ s, run demoWorld newSession [demoOpen, demoGot 1 200 [] none,
      demoGot 2 200 [(b!"Content-Base", b!"rtsp://h/x/")] (some b!"m=video 0 RTP/AVP 96\r\na=control:/live/1\r\nm=video 0 RTP/AVP 96\r\na=control:RTSP://h/x/2\r\nm=video 0 RTP/AVP 96\r\na=control:rtspu://h/x/3\r\n")] = .ok s ∧
    (setupsOf s).map (·.1) = [b!"rtsp://h/x//live/1", b!"rtsp://h/x/RTSP://h/x/2", b!"rtsp://h/x/rtspu://h/x/3"] := ⟨_, rfl, by decide⟩

/-- C95 fails when the base is another one: here the server moved the description, and the SETUP goes to the old place. -/
theorem C95_moved_refuted : ∃ s, run demoWorld newSession [demoOpen, demoGot 1 200 [] none,
      demoGot 2 200 [(b!"Content-Base", b!"rtsp://h/live/5/")] (some b!"m=video 0 RTP/AVP 96\r\na=control:track1\r\n")] = .ok s ∧
    (setupsOf s).map (·.1) = [b!"rtsp://h/x/track1"] ∧
    Address.folder ⟨b!"rtsp", none, b!"h", none, b!"/live/5/", none⟩ ++ b!"track1" = b!"rtsp://h/live/5/track1" := ⟨_, rfl, by decide, by decide⟩

theorem demo_track : RelativePath b!"track1" := ⟨by decide, by decide, by decide, by decide⟩

/-- The hypotheses of `C95_relative_iff` are met, once with a base for which the SETUP is right and once with one for which it is not. -/
example : ∃ (s : Sess) (req : Request), run demoWorld newSession [.open_ b!"rtsp://h/x" .tcp none, demoGot 1 200 [] none] = .ok s ∧
    pending 2 s.out = some req ∧ req.verb = b!"DESCRIBE" ∧ RelativePath b!"track1" ∧
    descriptionBase b!"rtsp://h/x" [(b!"Content-Base", b!"rtsp://h/x/")] = Address.text ⟨b!"rtsp", none, b!"h", none, b!"/x/", none⟩ ∧
    Address.folder ⟨b!"rtsp", none, b!"h", none, b!"/x/", none⟩ = b!"rtsp://h/x" ++ b!"/" ∧
    descriptionBase b!"rtsp://h/x" [] = Address.text ⟨b!"rtsp", none, b!"h", none, b!"/x", none⟩ ∧
    Address.folder ⟨b!"rtsp", none, b!"h", none, b!"/x", none⟩ ≠ b!"rtsp://h/x" ++ b!"/" :=
  ⟨_, _, rfl, rfl, by decide, demo_track, by decide, by decide, by decide, by decide⟩

/-- An address without a query: the hypotheses of `C95_slash_partial` and `C95_no_base_iff` are met ... -/
def demoNoQuery : Address := { demoAddress with query := none }

example : demoNoQuery.Valid ∧ demoNoQuery.query = none ∧
    dial demoNoQuery.text = some ⟨b!"cam-1.local:554", b!"rtsp://cam-1.local:554/live/ch%2F1", some (b!"admin", b!"p@ss:1")⟩ :=
  ⟨{ demoAddress_valid with query := fun q h => by (cases h) }, rfl, by decide +kernel⟩

/-- ... and by one with a query those of `C95_query_refuted`. -/
example : demoAddress.Valid ∧ demoAddress.query ≠ none ∧ (dial demoAddress.text).isSome = true := ⟨demoAddress_valid, nofun, by decide +kernel⟩

end Ouro
