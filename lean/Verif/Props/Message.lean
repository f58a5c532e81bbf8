import Verif.Lemmas.Message
/-! # C49–C51: requests, responses and headers -/
namespace Ouro
open Spec

/-! ## C51 -/

/-- Run a history of changes, latest first, on a new header map. -/
def runHdr : List HdrOp → Header
  | [] => []
  | .set n v :: older => (runHdr older).set n v
  | .del n :: older => (runHdr older).del n

/-- C51: after any history of `Set` and `Del`, `Get` returns the value most recently set under the same name in any letter case
and not deleted since, and the empty string if there is none. -/
theorem C51_case_insensitive (ops : List HdrOp) (h : ∀ op ∈ ops, IsName op.name) (name : Bytes) (hn : IsName name) :
    (runHdr ops).get name = (latest name ops).getD [] := by
  suffices hs : (runHdr ops).at (canonKey name) = latest name ops by unfold Header.get; rw [hs]
  induction ops with
  | nil => rfl
  | cons op ops ih =>
    have ih := ih (fun o ho => h o (by simp [ho]))
    have hop := h op (by simp)
    cases op with
    | set n v =>
      show ((runHdr ops).set n v).at _ = if sameName n name then some v else latest name ops
      rw [at_set, ih]
      exact ite_congr (propext (canonKey_same hop.2 hn.2)) (fun _ => rfl) (fun _ => rfl)
    | del n =>
      show ((runHdr ops).del n).at _ = if sameName n name then none else latest name ops
      rw [at_del, ih]
      exact ite_congr (propext (canonKey_same hop.2 hn.2)) (fun _ => rfl) (fun _ => rfl)

example : (runHdr [.set b!"cseq" b!"2", .set b!"Session" b!"x", .del b!"SESSION", .set b!"CSeq" b!"1"]).get b!"CSEQ" = b!"2" := by decide

/-- The characters a name consists of, exactly. -/
theorem C51_token_iff : ∀ c : UInt8, isToken c = true ↔ c ∈ tokenChars := forall_u8 (by decide +kernel)

/-- C51 for strings that are not header names: they are compared exactly. -/
theorem C51_not_names (h : Header) (k v k' : Bytes) (hk : ¬ ∀ c ∈ k, isToken c = true) :
    (h.set k v).get k' = if k = k' then v else h.get k' := by
  unfold Header.get
  rw [at_set]
  by_cases e : k = k'
  · rw [if_pos ((canonKey_other hk).2 e), if_pos e]; rfl
  · rw [if_neg (fun hc => e ((canonKey_other hk).1 hc)), if_neg e]

example : ¬ ∀ c ∈ b!"two words", isToken c = true := by decide

/-! ## C49 -/

/-- The lines of a packed request. -/
def packLines (r : Request) (order : Header) : List (Bytes × Bytes) :=
  [(b!"CSeq", itoa r.cseq)] ++ order ++
  (if r.session ≠ [] ∧ r.verb ≠ verbOptions ∧ r.verb ≠ verbSetup then [(b!"Session", r.session)] else []) ++
  (if r.auth ≠ [] then [(b!"Authorization", r.auth)] else []) ++ [(b!"User-Agent", b!"Ouro/1.0"), (b!"Content-Length", b!"0")]

theorem pack_lines (r : Request) (order : Header) : r.pack order =
    r.verb ++ b!" " ++ r.uri ++ b!" RTSP/1.0" ++ 13 :: 10 :: ((packLines r order).flatMap (fun e => headerLine e.1 e.2) ++ [13, 10]) := by
  unfold Request.pack packLines
  have e1 : ∀ (c : Prop) [Decidable c] (k v : Bytes), (if c then [(k, v)] else []).flatMap (fun e : Bytes × Bytes => headerLine e.1 e.2) =
      if c then headerLine k v else [] := by
    intro c _ k v; split <;> simp
  simp only [List.flatMap_append, List.flatMap_cons, List.flatMap_nil, List.append_nil, crnl, List.append_assoc, e1]
  simp

theorem split2_headers (hs : List (Bytes × Bytes)) (h : ∀ e ∈ hs, (13 : UInt8) ∉ e.1 ∧ (13 : UInt8) ∉ e.2) :
    split2 13 10 (hs.flatMap (fun e => headerLine e.1 e.2) ++ [13, 10]) = hs.map (fun e => e.1 ++ 58 :: 32 :: e.2) ++ [[], []] := by
  induction hs with
  | nil => decide
  | cons e hs ih =>
    have he := h e (by simp)
    have : (e :: hs).flatMap (fun e => headerLine e.1 e.2) ++ [13, 10] =
        (e.1 ++ 58 :: 32 :: e.2) ++ 13 :: 10 :: (hs.flatMap (fun e => headerLine e.1 e.2) ++ [13, 10]) := by
      simp [headerLine, colsp, crnl]
    rw [this, split2_line, ih (fun x hx => h x (by simp [hx]))]
    · rfl
    · intro hm
      simp only [List.mem_append, List.mem_cons] at hm
      rcases hm with hm | hm | hm | hm
      · exact he.1 hm
      · exact absurd hm (by decide)
      · exact absurd hm (by decide)
      · exact he.2 hm

theorem readHeaders_ok (hs : List (Bytes × Bytes)) (h : ∀ e ∈ hs, (58 : UInt8) ∉ e.1) :
    readHeaders (hs.map (fun e => e.1 ++ 58 :: 32 :: e.2) ++ [[], []]) = some (hs, [[]]) := by
  induction hs with
  | nil => rfl
  | cons e hs ih =>
    obtain ⟨a, t, hat⟩ : ∃ a t, e.1 ++ 58 :: 32 :: e.2 = a :: t := by cases e.1 <;> exact ⟨_, _, rfl⟩
    show readHeaders ((e.1 ++ 58 :: 32 :: e.2) :: (hs.map (fun e => e.1 ++ 58 :: 32 :: e.2) ++ [[], []])) = _
    have hsp := splitN2_append (32 :: e.2) (h e (by simp))
    rw [hat] at hsp ⊢
    simp only [readHeaders]
    rw [hsp, ih (fun x hx => h x (by simp [hx]))]
    rfl

/-- C49: for every request and whatever the order in which the header map is iterated, a server reads the verb, the URI and the
headers: CSeq, every entry of the header map exactly once, the session (unless the verb is OPTIONS or SETUP), the
authorization, the user agent and the length 0 of the body; and nothing follows. Required: verb and URI are single words
and no text has a carriage return. -/
theorem C49_request (r : Request) (order : Header) (hord : order.Perm r.header) (hv : IsWord r.verb) (hu : IsWord r.uri)
    (hh : ∀ e ∈ r.header, (58 : UInt8) ∉ e.1 ∧ (13 : UInt8) ∉ e.1 ∧ (13 : UInt8) ∉ e.2)
    (hs : (13 : UInt8) ∉ r.session) (ha : (13 : UInt8) ∉ r.auth) :
    serverRead (r.pack order) = some
      { verb := r.verb, uri := r.uri, version := b!"RTSP/1.0", body := [],
        headers := [(b!"CSeq", itoa r.cseq)] ++ order ++
          (if r.session ≠ [] ∧ r.verb ≠ b!"OPTIONS" ∧ r.verb ≠ b!"SETUP" then [(b!"Session", r.session)] else []) ++
          (if r.auth ≠ [] then [(b!"Authorization", r.auth)] else []) ++
          [(b!"User-Agent", b!"Ouro/1.0"), (b!"Content-Length", b!"0")] } := by
  have hcseq : (13 : UInt8) ∉ itoa r.cseq := by
    intro hm
    rcases itoa_bytes r.cseq _ hm with h | h
    · exact absurd h (by decide)
    · exact absurd h (by decide)
  have hl : ∀ e ∈ packLines r order, (58 : UInt8) ∉ e.1 ∧ (13 : UInt8) ∉ e.1 ∧ (13 : UInt8) ∉ e.2 := by
    intro e he
    unfold packLines at he
    simp only [List.mem_append] at he
    rcases he with (((he | he) | he) | he) | he
    · rw [List.mem_singleton] at he; subst he; exact ⟨show (58 : UInt8) ∉ b!"CSeq" by decide, show (13 : UInt8) ∉ b!"CSeq" by decide, hcseq⟩
    · exact hh e (hord.mem_iff.1 he)
    · split at he
      · rw [List.mem_singleton] at he; subst he; exact ⟨show (58 : UInt8) ∉ b!"Session" by decide, show (13 : UInt8) ∉ b!"Session" by decide, hs⟩
      · cases he
    · split at he
      · rw [List.mem_singleton] at he; subst he; exact ⟨show (58 : UInt8) ∉ b!"Authorization" by decide, show (13 : UInt8) ∉ b!"Authorization" by decide, ha⟩
      · cases he
    · simp only [List.mem_cons, List.not_mem_nil, or_false] at he
      rcases he with rfl | rfl <;> decide
  unfold serverRead
  rw [pack_lines, split2_line, split2_headers _ (fun e he => (hl e he).2)]
  · dsimp only
    rw [readHeaders_ok _ (fun e he => (hl e he).1)]
    have h1 : r.verb ++ b!" " ++ r.uri ++ b!" RTSP/1.0" = r.verb ++ 32 :: (r.uri ++ 32 :: b!"RTSP/1.0") := by simp
    rw [h1, split_append _ hv.1, split_append _ hu.1, split_none (by decide)]
    rfl
  · intro hm
    simp only [List.mem_append] at hm
    rcases hm with ((hm | hm) | hm) | hm
    · exact hv.2 hm
    · exact absurd hm (by decide)
    · exact hu.2 hm
    · exact absurd hm (by decide)

/-- C49: each entry of the header map is read exactly as often as it is in the map, in whatever order it was written. -/
theorem C49_any_order (r : Request) (o1 o2 : Header) (h1 : o1.Perm r.header) (h2 : o2.Perm r.header) (hv : IsWord r.verb) (hu : IsWord r.uri)
    (hh : ∀ e ∈ r.header, (58 : UInt8) ∉ e.1 ∧ (13 : UInt8) ∉ e.1 ∧ (13 : UInt8) ∉ e.2)
    (hs : (13 : UInt8) ∉ r.session) (ha : (13 : UInt8) ∉ r.auth) :
    ∃ a b, serverRead (r.pack o1) = some a ∧ serverRead (r.pack o2) = some b ∧ a.headers.Perm b.headers ∧
      { a with headers := [] } = { b with headers := [] } := by
  refine ⟨_, _, C49_request r o1 h1 hv hu hh hs ha, C49_request r o2 h2 hv hu hh hs ha, ?_, rfl⟩
  have := h1.trans h2.symm
  exact ((((List.Perm.refl _).append this).append_right _).append_right _).append_right _

example : serverRead (Request.pack { verb := b!"PLAY", cseq := 7, uri := b!"rtsp://h/x", session := b!"1234", header := [(b!"Range", b!"npt=0-")] }
    [(b!"Range", b!"npt=0-")]) = some ⟨b!"PLAY", b!"rtsp://h/x", b!"RTSP/1.0",
    [(b!"CSeq", b!"7"), (b!"Range", b!"npt=0-"), (b!"Session", b!"1234"), (b!"User-Agent", b!"Ouro/1.0"), (b!"Content-Length", b!"0")], []⟩ := by decide

/-! ## C50 -/

theorem get_value {s : Sent} (hw : s.WF) {name : Bytes} (hn : IsName name) : (setAll [] s.headers).get name = (s.value name).getD [] := by
  unfold Header.get; rw [setAll_at s.headers hw.headers hn.2]; rfl

theorem contentLen_digits {n : Nat} (h : n < 2 ^ 63) : contentLen (natDigits n) = n := by
  unfold contentLen; rw [atoi_natDigits n h]

theorem atoi_nil : atoi [] = (0, some .syntax) := rfl

/-- The response without its body. -/
def headOf (s : Sent) : Response :=
  ⟨b!"RTSP/1.0", if s.reason = [] then natDigits s.code else natDigits s.code ++ b!" " ++ s.reason, s.code,
    contentLen ((s.value b!"Content-Length").getD []), (atoi ((s.value b!"CSeq").getD [])).1, setAll [] s.headers, none⟩

/-- Everything up to the body; `tail` is whatever arrives then. -/
theorem unpack_head0 (s : Sent) (hw : s.WF) (r : Rdr) (tail : List Ev) (he : r.err = none)
    (hr : r.evs = (b!"RTSP/1.0" ++ b!" " ++ natDigits s.code ++ b!" " ++ s.reason ++ [13] ++ [10]).map .byte ++ ((s.headers.flatMap SentHeader.text ++ [13, 10]).map .byte ++ tail)) :
    ∃ r' : Rdr, r'.err = none ∧ r'.evs = tail ∧ ∃ rsp : Response, rsp = headOf s ∧
      rsp.proto = b!"RTSP/1.0" ∧ rsp.status = (if s.reason = [] then natDigits s.code else natDigits s.code ++ b!" " ++ s.reason) ∧
      rsp.statusCode = s.code ∧ rsp.header = setAll [] s.headers ∧ rsp.cseq = (atoi ((s.value b!"CSeq").getD [])).1 ∧
      rsp.contentLength = contentLen ((s.value b!"Content-Length").getD []) ∧ rsp.body = none ∧
      unpackRsp r = if rsp.contentLength > 0 then
          match r'.readBytes rsp.contentLength.toNat with
          | (.error e, r) => (.error (.io e), r)
          | (.ok b, r) => (.ok { rsp with body := some b }, r)
        else (.ok rsp, r') := by
  have hl : (10 : UInt8) ∉ b!"RTSP/1.0" ++ b!" " ++ natDigits s.code ++ b!" " ++ s.reason ++ [13] := by
    intro hm
    simp only [List.mem_append] at hm
    rcases hm with ((((hm | hm) | hm) | hm) | hm) | hm
    · exact absurd hm (by decide)
    · exact absurd hm (by decide)
    · exact digits_not_mem _ 10 (by decide) hm
    · exact absurd hm (by decide)
    · exact hw.reason.1 hm
    · exact absurd hm (by decide)
  obtain ⟨r1, h1, h2, h3⟩ := readLine_ok he hr hl
  have hsz : s.headers.length < r1.buf.length + r1.net.length + 1 := by
    have h4 := congrArg List.length h3
    unfold Rdr.evs at h4
    simp only [List.length_append, List.length_map, List.length_flatMap] at h4
    have : ∀ hs : List SentHeader, hs.length ≤ (hs.map fun h => h.text.length).sum := by
      intro hs
      induction hs with
      | nil => simp
      | cons h hs ih =>
        have : 1 ≤ h.text.length := by simp [SentHeader.text]; omega
        simp only [List.map_cons, List.sum_cons, List.length_cons]
        omega
    have := this s.headers
    omega
  obtain ⟨r2, h4, h5, h6⟩ := headerLoop_ok s.headers hw.headers (r1.buf.length + r1.net.length + 1) r1 [] _ h2 h3 hsz
  refine ⟨r2, h5, h6, headOf s, rfl,
    rfl, rfl, rfl, rfl, rfl, rfl, rfl, ?_⟩
  unfold unpackRsp
  rw [h1]
  dsimp only
  rw [statusLine_ok b!"RTSP/1.0" (by decide) s.code s.reason hw.code hw.reason]
  dsimp only
  rw [h4]
  dsimp only
  rw [get_value hw (name := b!"Content-Length") ⟨by decide, by decide⟩, get_value hw (name := b!"CSeq") ⟨by decide, by decide⟩]
  dsimp only [headOf]
  by_cases hcl : contentLen ((s.value b!"Content-Length").getD []) > 0
  · rw [if_pos hcl]
    refine Eq.trans ?_ (if_pos hcl).symm
    generalize r2.readBytes _ = q
    obtain ⟨x, q⟩ := q
    cases x <;> rfl
  · rw [if_neg hcl]
    exact (if_neg hcl).symm

theorem unpack_head (s : Sent) (hw : s.WF) (r : Rdr) (rest : List Ev) (he : r.err = none) (hr : r.evs = s.text.map .byte ++ rest) :
    ∃ r' : Rdr, r'.err = none ∧ r'.evs = s.body.map .byte ++ rest ∧ ∃ rsp : Response, rsp = headOf s ∧
      rsp.proto = b!"RTSP/1.0" ∧ rsp.status = (if s.reason = [] then natDigits s.code else natDigits s.code ++ b!" " ++ s.reason) ∧
      rsp.statusCode = s.code ∧ rsp.header = setAll [] s.headers ∧ rsp.cseq = (atoi ((s.value b!"CSeq").getD [])).1 ∧
      rsp.contentLength = contentLen ((s.value b!"Content-Length").getD []) ∧ rsp.body = none ∧
      unpackRsp r = if rsp.contentLength > 0 then
          match r'.readBytes rsp.contentLength.toNat with
          | (.error e, r) => (.error (.io e), r)
          | (.ok b, r) => (.ok { rsp with body := some b }, r)
        else (.ok rsp, r') :=
  unpack_head0 s hw r (s.body.map .byte ++ rest) he (by rw [hr]; simp [Sent.text])

/-- The whole response: what comes out depends on what was sent only, not on the pieces in which it arrived. -/
theorem unpack_exact (s : Sent) (hw : s.WF) (hlen : s.body.length ≤ 2048) (r : Rdr) (rest : List Ev) (he : r.err = none)
    (hr : r.evs = s.text.map .byte ++ rest) :
    ∃ r', unpackRsp r = (.ok { headOf s with body := if s.body = [] then none else some s.body }, r') ∧ r'.err = none ∧ r'.evs = rest := by
  obtain ⟨r1, h1, h2, rsp, e0, e1, e2, e3, e4, e5, e6, e7, h3⟩ := unpack_head s hw r rest he hr
  have hcl : rsp.contentLength = s.body.length := by
    rcases hw.body with h | ⟨h, h'⟩
    · rw [h, show (some (natDigits s.body.length)).getD [] = natDigits s.body.length from rfl, contentLen_digits (by omega)] at e6
      exact e6
    · rw [h'] at e6
      rw [e6, h]; rfl
  by_cases hb : s.body = []
  · rw [if_neg (by rw [hcl, hb]; simp)] at h3
    refine ⟨r1, ?_, h1, by rw [h2, hb]; rfl⟩
    rw [h3, e0, if_pos hb]; rfl
  · have hpos := List.length_pos_iff.2 hb
    rw [if_pos (by rw [hcl]; exact Int.ofNat_lt.2 hpos)] at h3
    obtain ⟨r2, h4, h5, h6⟩ := readBytes_ok h1 h2 hlen
    rw [show rsp.contentLength.toNat = s.body.length by rw [hcl]; rfl, h4] at h3
    refine ⟨r2, ?_, h5, h6⟩
    rw [h3, e0, if_neg hb]

/-- C50: a well-formed response with a body of at most 2048 bytes, followed by anything, in whatever pieces the data arrived
before: status, CSeq, headers and body come out as sent, and the reader is exactly at the first following byte. -/
theorem C50_response_partial (s : Sent) (hw : s.WF) (hlen : s.body.length ≤ 2048) (cseq : Nat) (hseq : cseq < 2 ^ 63)
    (hc : s.value b!"CSeq" = some (natDigits cseq)) (r : Rdr) (rest : List Ev) (he : r.err = none) (hr : r.evs = s.text.map .byte ++ rest) :
    ∃ rsp r', unpackRsp r = (.ok rsp, r') ∧ rsp.statusCode = s.code ∧
      rsp.status = (if s.reason = [] then natDigits s.code else natDigits s.code ++ b!" " ++ s.reason) ∧
      rsp.cseq = cseq ∧ rsp.contentLength = s.body.length ∧ rsp.body = (if s.body = [] then none else some s.body) ∧
      (∀ name, IsName name → rsp.header.get name = (s.value name).getD []) ∧ r'.err = none ∧ r'.evs = rest := by
  obtain ⟨r1, h1, h2, rsp, e0, e1, e2, e3, e4, e5, e6, e7, h3⟩ := unpack_head s hw r rest he hr
  rw [hc] at e5
  rw [show (some (natDigits cseq)).getD [] = natDigits cseq from rfl, atoi_natDigits cseq hseq] at e5
  have hcl : rsp.contentLength = s.body.length := by
    rcases hw.body with h | ⟨h, h'⟩
    · rw [h, show (some (natDigits s.body.length)).getD [] = natDigits s.body.length from rfl, contentLen_digits (by omega)] at e6
      exact e6
    · rw [h'] at e6
      rw [e6, h]; rfl
  have hget : ∀ name, IsName name → rsp.header.get name = (s.value name).getD [] := fun name hn => by rw [e4]; exact get_value hw hn
  by_cases hb : s.body = []
  · rw [if_neg (by rw [hcl, hb]; simp)] at h3
    refine ⟨rsp, r1, h3, e3, e2, e5, hcl, by rw [e7, if_pos hb], hget, h1, ?_⟩
    rw [h2, hb]; rfl
  · have hpos := List.length_pos_iff.2 hb
    rw [if_pos (by rw [hcl]; exact Int.ofNat_lt.2 hpos)] at h3
    obtain ⟨r2, h4, h5, h6⟩ := readBytes_ok h1 h2 hlen
    rw [show rsp.contentLength.toNat = s.body.length by rw [hcl]; rfl, h4] at h3
    exact ⟨_, r2, h3, e3, e2, e5, hcl, by rw [if_neg hb], hget, h5, h6⟩

example : ∃ s : Sent, s.WF ∧ s.body.length ≤ 2048 ∧ s.value b!"CSeq" = some (natDigits 2) ∧
    s.text = b!"RTSP/1.0 200 OK\r\nCSEQ: 2\r\nContent-Type:application/sdp\r\nContent-length: 5\r\n\r\nv=0\r\n" := by
  refine ⟨⟨200, b!"OK", [⟨b!"CSEQ", [32], b!"2"⟩, ⟨b!"Content-Type", [], b!"application/sdp"⟩, ⟨b!"Content-length", [32], b!"5"⟩], b!"v=0\r\n"⟩, ?_, by decide, by decide, by decide⟩
  refine ⟨by decide, ⟨by decide, by decide, by decide⟩, ?_, .inl (by decide)⟩
  intro h hh
  simp only [List.mem_cons, List.not_mem_nil, or_false] at hh
  rcases hh with rfl | rfl | rfl <;> exact ⟨⟨by decide, by decide⟩, by decide, by decide, by decide, by decide⟩

/-- C50 fails for every longer body: `Unpack` reports an error although the response is complete. -/
theorem C50_long_body_refuted (s : Sent) (hw : s.WF) (hlen : s.body.length > 2048) (hlen' : s.body.length < 2 ^ 63) (r : Rdr) (rest : List Ev) (he : r.err = none)
    (hr : r.evs = s.text.map .byte ++ rest) : (unpackRsp r).1 = .error (.io .bufferFull) := by
  obtain ⟨r1, h1, h2, rsp, e0, e1, e2, e3, e4, e5, e6, e7, h3⟩ := unpack_head s hw r rest he hr
  have hcl : rsp.contentLength = s.body.length := by
    rcases hw.body with h | ⟨h, h'⟩
    · rw [h, show (some (natDigits s.body.length)).getD [] = natDigits s.body.length from rfl, contentLen_digits hlen'] at e6
      exact e6
    · rw [h] at hlen; simp at hlen
  rw [if_pos (by omega), hcl, Int.toNat_natCast] at h3
  have : ∃ r2, r1.readBytes s.body.length = (.error .bufferFull, r2) := by
    unfold Rdr.readBytes Rdr.peek
    dsimp only
    rw [if_pos (show s.body.length > bufSize from hlen)]
    exact ⟨_, rfl⟩
  obtain ⟨r2, h4⟩ := this
  rw [h3, h4]

/-- A response with a body of any length. -/
def zeros (n : Nat) : Sent := ⟨200, [], [⟨b!"Content-Length", [], natDigits n⟩], List.replicate n 0⟩

theorem zeros_wf (n : Nat) : (zeros n).WF := by
  have hd : ∀ c ∈ natDigits n, visible c = true := fun c hc => digit_plain c (natDigits_digit n c hc)
  refine ⟨show 100 ≤ 200 ∧ 200 ≤ 999 by decide, ⟨List.not_mem_nil, fun a h => by (cases h), fun a h => by (cases h)⟩, ?_, .inl ?_⟩
  · intro h hh
    have hh : h ∈ [(⟨b!"Content-Length", [], natDigits n⟩ : SentHeader)] := hh
    rw [List.mem_singleton] at hh
    subst hh
    refine ⟨⟨show b!"Content-Length" ≠ [] by decide, show ∀ c ∈ b!"Content-Length", isToken c = true by decide⟩, fun c hc => by (cases hc),
      digits_not_mem n 10 (by decide), fun a ha => hd a ?_, fun a ha => hd a ?_⟩
    · exact List.mem_of_mem_head? ha
    · exact List.mem_of_getLast? ha
  · show some (natDigits n) = some (natDigits (List.replicate n 0).length)
    rw [List.length_replicate]

example : ∃ s : Sent, s.WF ∧ s.body.length > 2048 := ⟨zeros 2049, zeros_wf 2049, by show (List.replicate 2049 0).length > 2048; rw [List.length_replicate]; decide⟩

end Ouro
