import Verif.Lemmas.Authorize
import Verif.Props.Setup
/-! # C79: requests are authorized for themselves -/
namespace Ouro
open Spec

/-- C79, before: as long as no challenge was answered, requests carry no credentials. -/
theorem C79_before (w : World) (uri : Bytes) (proto : Proto) (user : Option (Bytes × Bytes)) (ops : List Op) (s : Sess) (hno : NoOpen ops)
    (h : run w newSession (.open_ uri proto user :: ops) = .ok s) (a b : List Out) (r : Bool) (q : Request) (res : IORes) (ho : s.out = a ++ .sent r q res :: b)
    (hc : challengeOf (.sent r q res :: b) = none) : q.auth = [] := by
  have := ((opened_ainv hno h).sent a b r q res ho).1
  rw [hc] at this
  exact this

/-- C79, Basic: after a Basic challenge was answered, every request carries the user and the password, until another challenge is answered. -/
theorem C79_basic (w : World) (uri : Bytes) (proto : Proto) (u p : Bytes) (ops : List Op) (s : Sess) (hno : NoOpen ops)
    (h : run w newSession (.open_ uri proto (some (u, p)) :: ops) = .ok s) (a b : List Out) (r : Bool) (q : Request) (res : IORes)
    (ho : s.out = a ++ .sent r q res :: b) (rsp : Response) (older : List Out) (hc : challengeOf (.sent r q res :: b) = some (rsp, older))
    (ps : List Param) (hne : ps ≠ []) (hps : ∀ p ∈ ps, p.WF) (hl : ∀ p, ps.getLast? = some p → p.after = [])
    (hch : rsp.header.get b!"WWW-Authenticate" = b!"Basic " ++ paramsText ps) :
    q.auth = b!"Basic " ++ b64Encode (u ++ b!":" ++ p) := by
  have hq := ((opened_ainv hno h).sent a b r q res ho).1
  rw [hc] at hq
  obtain ⟨d0, u', p', h1, h2, h3, _⟩ := hq
  injection h2 with h2; injection h2 with h2 h2'
  subst h2 h2'
  obtain ⟨g1, g2⟩ := C41_parsed_partial uri [] [] true ps hne hps hl (by simp) (by simp)
  rw [hch] at h1
  simp only [if_true, List.append_nil, List.nil_append] at g1 g2
  by_cases halg : ((lastValue .algorithm ps).map toLower).getD b!"md5" ∈ [b!"md5", b!"md5-sess"] ∨ (lastValue .nonce ps).getD [] = []
  · obtain ⟨d, e1, e2, _⟩ := g2 halg
    rw [h1] at e1; injection e1 with e1
    subst e1
    exact h3 e2
  · have := g1 ⟨fun e => halg (.inl e), fun e => halg (.inr e)⟩
    rw [h1] at this; cases this

/-- C79, Digest: after a challenge was answered every request other than SETUP, sent again or new, carries the Authorization value of RFC 2617 for the
realm, nonce, opaque value and quality of protection of the latest such challenge, for its own method and its own URI. For md5-sess this holds
of the request sent again only (C43). For SETUP see `C79_setup_refuted`. -/
theorem C79_digest_partial (w : World) (uri : Bytes) (proto : Proto) (u p : Bytes) (ops : List Op) (s : Sess) (hno : NoOpen ops)
    (h : run w newSession (.open_ uri proto (some (u, p)) :: ops) = .ok s) (a b : List Out) (r : Bool) (q : Request) (res : IORes)
    (ho : s.out = a ++ .sent r q res :: b) (rsp : Response) (older : List Out) (hc : challengeOf (.sent r q res :: b) = some (rsp, older))
    (ps : List Param) (hne : ps ≠ []) (hps : ∀ p ∈ ps, p.WF) (hl : ∀ p, ps.getLast? = some p → p.after = [])
    (hch : rsp.header.get b!"WWW-Authenticate" = b!"Digest " ++ paramsText ps) (hverb : q.verb ≠ b!"SETUP")
    (algorithm qop realm nonce opq : Bytes) (halg : algorithm = ((lastValue .algorithm ps).map toLower).getD b!"md5") (hqop : qop = ((lastValue .qop ps).map toLower).getD [])
    (hrealm : realm = (lastValue .realm ps).getD []) (hnonce : nonce = (lastValue .nonce ps).getD []) (hopq : opq = (lastValue .opaque_ ps).getD [])
    (hok : algorithm = b!"md5" ∨ (algorithm = b!"md5-sess" ∧ r = true ∧ qop ≠ [])) :
    ∃ cnonce, cnonce = clientNonce (w.rnd (.got rsp :: older)) ∧
      q.auth = authorization u realm nonce q.uri algorithm opq qop b!"00000001" cnonce
        (requestDigest (md5hex w.md5) (algorithm = b!"md5-sess") u realm p nonce b!"00000001" cnonce qop q.verb q.uri []) := by
  obtain ⟨hq, huri⟩ := (opened_ainv hno h).sent a b r q res ho
  rw [hc] at hq
  obtain ⟨d0, u', p', h1, h2, _, h4⟩ := hq
  injection h2 with h2; injection h2 with h2 h2'
  subst h2 h2'
  have huri : q.uri = uri := huri.resolve_left hverb
  obtain ⟨_, g2⟩ := C41_parsed_partial uri [] [] false ps hne hps hl (by simp) (by simp)
  rw [hch] at h1
  simp only [Bool.false_eq_true, if_false, List.append_nil, List.nil_append, ← halg, ← hqop, ← hrealm, ← hnonce, ← hopq] at g2
  obtain ⟨d, e1, e2, e3, e4, e5, e6, e7, e8⟩ := g2 (.inl (by rcases hok with h | h <;> simp [h]))
  rw [h1] at e1; injection e1 with e1
  subst e1
  refine ⟨_, rfl, ?_⟩
  have := h4 e2 (by
    rw [e7, e8]
    rcases hok with h | ⟨h, h', h''⟩
    · left; rw [h]; decide
    · exact .inr ⟨h', h''⟩)
  rw [this, huri]
  unfold rfcAuthorization
  rw [e3, e4, e5, e6, e7, e8]

/-- C79, exact law: as `C79_digest_partial`, for requests of every method, with the address that was opened in place of the request's own URI. -/
theorem C79_digest_exact (w : World) (uri : Bytes) (proto : Proto) (u p : Bytes) (ops : List Op) (s : Sess) (hno : NoOpen ops)
    (h : run w newSession (.open_ uri proto (some (u, p)) :: ops) = .ok s) (a b : List Out) (r : Bool) (q : Request) (res : IORes)
    (ho : s.out = a ++ .sent r q res :: b) (rsp : Response) (older : List Out) (hc : challengeOf (.sent r q res :: b) = some (rsp, older))
    (ps : List Param) (hne : ps ≠ []) (hps : ∀ p ∈ ps, p.WF) (hl : ∀ p, ps.getLast? = some p → p.after = [])
    (hch : rsp.header.get b!"WWW-Authenticate" = b!"Digest " ++ paramsText ps)
    (algorithm qop realm nonce opq : Bytes) (halg : algorithm = ((lastValue .algorithm ps).map toLower).getD b!"md5") (hqop : qop = ((lastValue .qop ps).map toLower).getD [])
    (hrealm : realm = (lastValue .realm ps).getD []) (hnonce : nonce = (lastValue .nonce ps).getD []) (hopq : opq = (lastValue .opaque_ ps).getD [])
    (hok : algorithm = b!"md5" ∨ (algorithm = b!"md5-sess" ∧ r = true ∧ qop ≠ [])) :
    ∃ cnonce, cnonce = clientNonce (w.rnd (.got rsp :: older)) ∧
      q.auth = authorization u realm nonce uri algorithm opq qop b!"00000001" cnonce
        (requestDigest (md5hex w.md5) (algorithm = b!"md5-sess") u realm p nonce b!"00000001" cnonce qop q.verb uri []) := by
  obtain ⟨hq, huri⟩ := (opened_ainv hno h).sent a b r q res ho
  rw [hc] at hq
  obtain ⟨d0, u', p', h1, h2, _, h4⟩ := hq
  injection h2 with h2; injection h2 with h2 h2'
  subst h2 h2'
  obtain ⟨_, g2⟩ := C41_parsed_partial uri [] [] false ps hne hps hl (by simp) (by simp)
  rw [hch] at h1
  simp only [Bool.false_eq_true, if_false, List.append_nil, List.nil_append, ← halg, ← hqop, ← hrealm, ← hnonce, ← hopq] at g2
  obtain ⟨d, e1, e2, e3, e4, e5, e6, e7, e8⟩ := g2 (.inl (by rcases hok with h | h <;> simp [h]))
  rw [h1] at e1; injection e1 with e1
  subst e1
  refine ⟨_, rfl, ?_⟩
  have := h4 e2 (by
    rw [e7, e8]
    rcases hok with h | ⟨h, h', h''⟩
    · left; rw [h]; decide
    · exact .inr ⟨h', h''⟩)
  rw [this]
  unfold rfcAuthorization
  rw [e3, e4, e5, e6, e7, e8]

/-- What stands before the first quote is determined. -/
theorem before_quote {a b c d : Bytes} (ha : (34 : UInt8) ∉ a) (hb : (34 : UInt8) ∉ b) (h : a ++ 34 :: c = b ++ 34 :: d) : a = b := by
  induction a generalizing b with
  | nil =>
    cases b with
    | nil => rfl
    | cons x t => simp at h; exact absurd (by rw [← h.1]; exact List.mem_cons_self) hb
  | cons x t ih =>
    cases b with
    | nil => simp at h; exact absurd (by rw [h.1]; exact List.mem_cons_self) ha
    | cons y t' =>
      simp only [List.cons_append, List.cons.injEq] at h
      rw [h.1, ih (fun e => ha (List.mem_cons_of_mem _ e)) (fun e => hb (List.mem_cons_of_mem _ e)) h.2]

/-- An Authorization value names one URI. -/
theorem authorization_uri {u realm nonce uri uri' al al' opq opq' qop qop' nc nc' cn cn' re re' : Bytes} (h1 : (34 : UInt8) ∉ uri) (h2 : (34 : UInt8) ∉ uri')
    (h : authorization u realm nonce uri al opq qop nc cn re = authorization u realm nonce uri' al' opq' qop' nc' cn' re') : uri = uri' := by
  have key : ∀ x al opq qop nc cn re, ∃ t, authorization u realm nonce x al opq qop nc cn re =
      (b!"Digest " ++ quotedParam b!"username" u ++ b!", " ++ quotedParam b!"realm" realm ++ b!", " ++ quotedParam b!"nonce" nonce ++ b!", " ++ b!"uri=\"") ++ (x ++ 34 :: t) := by
    intro x al opq qop nc cn re
    have : ∃ t, commaSpace (quotedParam b!"uri" x :: ([quotedParam b!"algorithm" al] ++ (if opq = [] then [] else [quotedParam b!"opaque" opq]) ++
        (if qop = [] then [] else [quotedParam b!"qop" qop, b!"nc=" ++ nc, quotedParam b!"cnonce" cn]) ++ [quotedParam b!"response" re])) = b!"uri=\"" ++ (x ++ 34 :: t) := by
      refine ⟨b!", " ++ commaSpace ([quotedParam b!"algorithm" al] ++ (if opq = [] then [] else [quotedParam b!"opaque" opq]) ++
        (if qop = [] then [] else [quotedParam b!"qop" qop, b!"nc=" ++ nc, quotedParam b!"cnonce" cn]) ++ [quotedParam b!"response" re]), ?_⟩
      simp [commaSpace, quotedParam]
    obtain ⟨t, ht⟩ := this
    refine ⟨t, ?_⟩
    rw [List.append_assoc _ (b!"uri=\""), ← ht]
    simp [authorization, commaSpace]
  obtain ⟨t, e⟩ := key uri al opq qop nc cn re
  obtain ⟨t', e'⟩ := key uri' al' opq' qop' nc' cn' re'
  rw [e, e'] at h
  exact before_quote h1 h2 (List.append_cancel_left h)

/-- C79 fails for every SETUP whose URI is not the address that was opened: after a Digest challenge its Authorization value is none of RFC 2617 for this
user, realm, nonce and the URI of the request. -/
theorem C79_setup_never (w : World) (uri : Bytes) (proto : Proto) (u p : Bytes) (ops : List Op) (s : Sess) (hno : NoOpen ops)
    (h : run w newSession (.open_ uri proto (some (u, p)) :: ops) = .ok s) (a b : List Out) (r : Bool) (q : Request) (res : IORes)
    (ho : s.out = a ++ .sent r q res :: b) (rsp : Response) (older : List Out) (hc : challengeOf (.sent r q res :: b) = some (rsp, older))
    (ps : List Param) (hne : ps ≠ []) (hps : ∀ p ∈ ps, p.WF) (hl : ∀ p, ps.getLast? = some p → p.after = [])
    (hch : rsp.header.get b!"WWW-Authenticate" = b!"Digest " ++ paramsText ps)
    (halg : ((lastValue .algorithm ps).map toLower).getD b!"md5" = b!"md5") (hq : q.uri ≠ uri) (h1 : (34 : UInt8) ∉ uri) (h2 : (34 : UInt8) ∉ q.uri) :
    q.verb = b!"SETUP" ∧ ∀ al opq qop nc cnonce response,
      q.auth ≠ authorization u ((lastValue .realm ps).getD []) ((lastValue .nonce ps).getD []) q.uri al opq qop nc cnonce response := by
  refine ⟨Decidable.byContradiction fun hv => hq (((opened_ainv hno h).sent a b r q res ho).2.resolve_left hv), ?_⟩
  intro al opq qop nc cnonce response e
  obtain ⟨cn, _, e'⟩ := C79_digest_exact w uri proto u p ops s hno h a b r q res ho rsp older hc ps hne hps hl hch _ _ _ _ _ rfl rfl rfl rfl rfl (.inl halg)
  rw [e] at e'
  exact hq (authorization_uri h2 h1 e')

/-- Every request other than SETUP is for the address that was opened. -/
theorem C79_uri (w : World) (uri : Bytes) (proto : Proto) (user : Option (Bytes × Bytes)) (ops : List Op) (s : Sess) (hno : NoOpen ops)
    (h : run w newSession (.open_ uri proto user :: ops) = .ok s) (a b : List Out) (r : Bool) (q : Request) (res : IORes) (ho : s.out = a ++ .sent r q res :: b)
    (hverb : q.verb ≠ b!"SETUP") : q.uri = uri := ((opened_ainv hno h).sent a b r q res ho).2.resolve_left hverb

/-- A challenge. -/
def demoChallenge (cseq : Int) : Op := demoGot cseq 401 [(b!"Www-Authenticate", b!"Digest realm=\"r\", nonce=\"n\"")] none

/-- A session in which OPTIONS is challenged, then a DESCRIBE and a SETUP follow. -/
def demoDigest : List Op := [demoChallenge 1, demoGot 1 200 [] none, demoGot 2 200 [] (some demoSdp)]

theorem demoDigest_noOpen : NoOpen demoDigest := by
  intro op hop
  simp only [demoDigest, demoChallenge, demoGot, List.mem_cons, List.not_mem_nil, or_false] at hop
  rcases hop with rfl | rfl | rfl <;> exact fun h => h

def demoParams : List Param :=
  [{ name := .realm, written := b!"realm", value := b!"r", quoted := true }, { name := .nonce, written := b!"nonce", value := b!"n", quoted := true, before := b!" " }]

/-- The DESCRIBE of that session meets what `C79_digest_partial` requires: it is new, not SETUP, and was sent after the challenge. -/
example : ∃ s a b q rsp older, NoOpen demoDigest ∧ run demoWorld newSession (demoOpen :: demoDigest) = .ok s ∧ s.out = a ++ .sent false q .ok :: b ∧ q.verb = b!"DESCRIBE" ∧
    challengeOf (.sent false q .ok :: b) = some (rsp, older) ∧ rsp.header.get b!"WWW-Authenticate" = b!"Digest " ++ paramsText demoParams ∧
    q.auth = b!"Digest username=\"u\", realm=\"r\", nonce=\"n\", uri=\"rtsp://h/x\", algorithm=\"md5\", response=\"\"" :=
  ⟨_, [_, _, _], _, _, _, _, demoDigest_noOpen, rfl, rfl, rfl, rfl, by decide, by decide⟩

example : ∀ p ∈ demoParams, p.WF := by
  intro p hp
  simp only [demoParams, List.mem_cons, List.not_mem_nil, or_false] at hp
  rcases hp with rfl | rfl <;> exact ⟨by decide, by decide, by decide, by decide, by decide, by decide⟩

/-- The SETUP of that session meets what `C79_setup_never` requires. -/
example : ∃ s a b q rsp older, NoOpen demoDigest ∧ run demoWorld newSession (demoOpen :: demoDigest) = .ok s ∧ s.out = a ++ .sent false q .ok :: b ∧
    challengeOf (.sent false q .ok :: b) = some (rsp, older) ∧ rsp.header.get b!"WWW-Authenticate" = b!"Digest " ++ paramsText demoParams ∧
    ((lastValue .algorithm demoParams).map toLower).getD b!"md5" = b!"md5" ∧ q.uri ≠ b!"rtsp://h/x" ∧ (34 : UInt8) ∉ b!"rtsp://h/x" ∧ (34 : UInt8) ∉ q.uri :=
  ⟨_, [_], _, _, _, _, demoDigest_noOpen, rfl, rfl, rfl, by decide, by decide, by decide, by decide, by decide⟩

/-- C79 fails for SETUP: the value is made for the address that was opened, not for that of the request, so it is none of RFC 2617 for this request. -/
theorem C79_setup_refuted : ∃ s a b q rsp older, NoOpen demoDigest ∧ run demoWorld newSession (demoOpen :: demoDigest) = .ok s ∧ s.out = a ++ .sent false q .ok :: b ∧
    q.verb = b!"SETUP" ∧ q.uri = b!"rtsp://h/x/v" ∧ challengeOf (.sent false q .ok :: b) = some (rsp, older) ∧
    rsp.header.get b!"WWW-Authenticate" = b!"Digest " ++ paramsText demoParams ∧
    ∀ opq qop nc cnonce response, q.auth ≠ authorization b!"u" b!"r" b!"n" q.uri b!"md5" opq qop nc cnonce response := by
  refine ⟨_, [_], _, _, _, _, demoDigest_noOpen, rfl, rfl, rfl, rfl, rfl, by decide, ?_⟩
  intro opq qop nc cnonce response h
  have h : (authorization b!"u" b!"r" b!"n" b!"rtsp://h/x" b!"md5" [] [] [] [] [])[58]? = (authorization b!"u" b!"r" b!"n" b!"rtsp://h/x/v" b!"md5" opq qop nc cnonce response)[58]? :=
    congrArg (fun l : Bytes => l[58]?) h
  exact absurd (show some (34 : UInt8) = some 47 from h) (by decide)

/-- A session in which OPTIONS is challenged for Basic, then a DESCRIBE and a SETUP follow. -/
def demoBasic : List Op := [demoGot 1 401 [(b!"Www-Authenticate", b!"Basic realm=\"r\"")] none, demoGot 1 200 [] none, demoGot 2 200 [] (some demoSdp)]

/-- Its DESCRIBE meets what `C79_basic` requires, and its first OPTIONS what `C79_before` requires. -/
example : (∃ s a b q rsp older, NoOpen demoBasic ∧ run demoWorld newSession (demoOpen :: demoBasic) = .ok s ∧ s.out = a ++ .sent false q .ok :: b ∧ q.verb = b!"DESCRIBE" ∧
      challengeOf (.sent false q .ok :: b) = some (rsp, older) ∧ rsp.header.get b!"WWW-Authenticate" = b!"Basic " ++ paramsText (demoParams.take 1) ∧
      (∀ p, (demoParams.take 1).getLast? = some p → p.after = []) ∧ q.auth = b!"Basic " ++ b64Encode b!"u:p") ∧
    ∃ s a q, run demoWorld newSession (demoOpen :: demoBasic) = .ok s ∧ s.out = a ++ [.sent false q .ok] ∧ challengeOf [.sent false q .ok] = none ∧ q.auth = [] := by
  refine ⟨⟨_, [_, _, _], _, _, _, _, ?_, rfl, rfl, rfl, rfl, by decide, ?_, by decide⟩, ⟨_, [_, _, _, _, _, _, _], _, rfl, rfl, rfl, rfl⟩⟩
  · intro op hop
    simp only [demoBasic, demoGot, List.mem_cons, List.not_mem_nil, or_false] at hop
    rcases hop with rfl | rfl | rfl <;> exact fun h => h
  · intro p hp
    injection hp with hp
    subst hp
    rfl

end Ouro
