import Verif.Lemmas.SessionInv
import Verif.Props.Digest
/-! # C55, C57–C60, C64: sessions -/
namespace Ouro
open Spec

/-! ## A world and responses for the examples -/

/-- A world in which everything works. -/
def demoWorld : World := ⟨fun _ => [], 0, fun _ => [], fun _ _ => .ok, fun _ _ _ => .ok⟩

/-- A response with the given CSeq, status, headers and body. -/
def demoRsp (cseq code : Int) (h : Header) (body : Option Bytes) : Response := ⟨b!"RTSP/1.0", [], code, 0, cseq, h, body⟩

def demoOpen : Op := .open_ b!"rtsp://h/x" .tcp (some (b!"u", b!"p"))

def demoGot (cseq code : Int) (h : Header) (body : Option Bytes) : Op := .item (.response (demoRsp cseq code h body))

/-- A refusal. -/
def demo401 (cseq : Int) : Op := demoGot cseq 401 [(b!"Www-Authenticate", b!"Basic realm=\"r\"")] none

/-- The verbs and CSeq numbers of the requests sent, oldest first. -/
def sentSeqs (s : Sess) : List (Bool × Bytes × Int) :=
  (s.out.reverse.filterMap fun o => match o with | .sent r req _ => some (r, req.verb, req.cseq) | _ => none)

/-! ## C55 -/

/-- C55: in every history the new requests carry the CSeq numbers 1, 2, 3, ..., in this order. -/
theorem C55_numbered (w : World) (s : Sess) (h : Reachable w s) :
    (newSeqs s.out).reverse = (List.range (newSeqs s.out).length).map fun i : Nat => (i : Int) + 1 := by
  have hp := (inv_reachable h).past
  revert hp
  generalize s.out = o
  induction o with
  | nil => intro _; rfl
  | cons x b ih =>
    intro hp
    have ih := ih hp.2
    cases x with
    | sent r req res =>
      cases r with
      | true => exact ih
      | false =>
        have h3 : req.cseq = (newSeqs b).length + 1 := hp.1.2.2
        show (req.cseq :: newSeqs b).reverse = _
        rw [List.reverse_cons, ih]
        show _ = (List.range ((newSeqs b).length + 1)).map _
        rw [List.range_succ, List.map_append, h3]; rfl
    | got => exact ih
    | notified => exact ih
    | started => exact ih
    | data => exact ih

/-- C55: so no two of them are the same. -/
theorem C55_fresh (w : World) (s : Sess) (h : Reachable w s) : (newSeqs s.out).Nodup := by
  rw [← (List.reverse_perm _).nodup_iff, C55_numbered w s h, List.Nodup, List.pairwise_map]
  exact List.Pairwise.imp (fun hlt e => by omega) (List.pairwise_lt_range)

example : ∃ s, Reachable demoWorld s ∧ newSeqs s.out = [3, 2, 1] :=
  ⟨_, ⟨[demoOpen, .play, demo401 1, .pause], rfl⟩, by decide⟩

/-! ## C57 -/

/-- C57: a response with a CSeq for which no request is pending is an error and changes nothing. -/
theorem C57_unknown (w : World) (s : Sess) (h : Reachable w s) (rsp : Response) (hp : pending rsp.cseq s.out = none) :
    step w s (.item (.response rsp)) = .ok ({ s with out := .got rsp :: s.out }, some .badResponse) := by
  show handleRtsp w { s with out := .got rsp :: s.out } rsp = _
  unfold handleRtsp
  have : ({ s with out := .got rsp :: s.out } : Sess).find rsp.cseq = none := by rw [← hp, ← (inv_reachable h).find]; rfl
  rw [this]
  rfl

example : ∃ (s : Sess) (rsp : Response), Reachable demoWorld s ∧ s.out.length = 2 ∧ pending rsp.cseq s.out = none :=
  ⟨_, demoRsp 7 200 [] none, ⟨[demoOpen, .play], rfl⟩, rfl, by decide⟩

/-- New requests do not touch older pending ones. -/
theorem sends_pending {s s' : Sess} (hp : Sends s s') (c : Int) (hc : c ≤ s.cseq) : pending c s'.out = pending c s.out := by
  induction hp with
  | refl => rfl
  | @step s t u h _ ih =>
    cases h with
    | quiet hc' hq hs ho => rw [ih (by omega), ho]
    | ready k hc' hq hs ho => rw [ih (by omega), ho]; rfl
    | cmd req res hseq _ _ hc' hq hs ho => rw [ih (by omega), ho, pending, if_neg (by omega)]

/-- C57: after an answer other than a refusal the request is no longer pending, and all other requests are as before. -/
theorem C57_answered (w : World) (s s' : Sess) (h : Reachable w s) (rsp : Response) (req : Request) (e : Option SErr)
    (hp : pending rsp.cseq s.out = some req) (h401 : rsp.statusCode ≠ 401) (hs : step w s (.item (.response rsp)) = .ok (s', e)) :
    pending rsp.cseq s'.out = none ∧ ∀ c r, c ≠ rsp.cseq → pending c s.out = some r → pending c s'.out = some r := by
  have inv := inv_reachable h
  obtain ⟨t, h1, h2⟩ := handle_took (by rw [inv.find]; exact hp) h401 hs
  have hr := inv.range _ _ hp
  have ht : t.cseq = s.cseq ∧ ∀ c, pending c t.out = pending c (.got rsp :: s.out) := by
    cases h1 with
    | answered hc hq hs ho => exact ⟨hc, fun c => by rw [ho]⟩
    | granted st h200 hst hc hq hs ho => exact ⟨hc, fun c => by rw [ho]; rfl⟩
  constructor
  · rw [sends_pending h2 _ (by omega), ht.2, pending, if_pos rfl]
  · intro c r hc hcp
    rw [sends_pending h2 _ (by have := inv.range _ _ hcp; omega), ht.2, pending, if_neg (fun e => hc e.symm), hcp]

example : ∃ (s : Sess) (rsp : Response) (req other : Request), Reachable demoWorld s ∧ pending rsp.cseq s.out = some req ∧ rsp.statusCode ≠ 401 ∧
    pending 2 s.out = some other ∧ other.verb = b!"PLAY" :=
  ⟨_, demoRsp 1 200 [] none, _, _, ⟨[demoOpen, .play], rfl⟩, rfl, by decide, rfl, by decide⟩

/-- C57: a response with a CSeq that was answered before is an error that changes nothing, as long as no request was sent again
after that answer. -/
theorem C57_once_partial (w : World) (s : Sess) (h : Reachable w s) (a b : List Out) (rsp0 rsp : Response) (ho : s.out = a ++ .got rsp0 :: b)
    (hp : pending rsp0.cseq b ≠ none) (hr : ∀ req res, .sent true req res ∉ a) (he : rsp.cseq = rsp0.cseq) :
    step w s (.item (.response rsp)) = .ok ({ s with out := .got rsp :: s.out }, some .badResponse) := by
  apply C57_unknown w s h
  have inv := inv_reachable h
  have hpast := inv.past
  rw [ho] at hpast
  have hrange := inv.range
  rw [he, ho]
  -- the CSeq is not greater than the number of requests sent before
  have hb : rsp0.cseq ≤ (newSeqs b).length := past_range _ _ hpast.tail hp
  clear ho hp hrange
  induction a with
  | nil => rw [List.nil_append, pending, if_pos rfl]
  | cons x a ih =>
    have ih := ih (fun req res hm => hr req res (by simp [hm])) hpast.2
    cases x with
    | sent r req res =>
      cases r with
      | true => exact absurd (by simp) (hr req res)
      | false =>
        have h3 : req.cseq = (newSeqs (a ++ .got rsp0 :: b)).length + 1 := hpast.1.2.2
        have h4 : (newSeqs b).length ≤ (newSeqs (a ++ .got rsp0 :: b)).length := newSeqs_le a (.got rsp0 :: b)
        rw [List.cons_append, pending, if_neg (by omega), ih]
    | got r =>
      rw [List.cons_append, pending]
      split
      · rfl
      · exact ih
    | notified => exact ih
    | started => exact ih
    | data => exact ih

example : ∃ s a b rsp0, Reachable demoWorld s ∧ s.out = a ++ .got rsp0 :: b ∧ pending rsp0.cseq b ≠ none ∧ a.length = 1 := by
  refine ⟨_, [_], _, demoRsp 1 200 [] none, ⟨[demoOpen, demoGot 1 200 [] none], rfl⟩, rfl, ?_, rfl⟩
  decide

/-- C57 fails as stated: two requests are pending, the second is answered, the first is refused and sent again with the CSeq of
the second: now a repeated response to the second is taken for an answer to the first. -/
theorem C57_refuted : ∃ s, run demoWorld newSession [demoOpen, .play, demoGot 2 200 [] none, demo401 1] = .ok s ∧
    sentSeqs s = [(false, b!"OPTIONS", 1), (false, b!"PLAY", 2), (true, b!"OPTIONS", 2)] ∧
    ∃ s', step demoWorld s (demoGot 2 200 [] none) = .ok (s', none) := ⟨_, rfl, by decide, _, rfl⟩

/-! ## C58 -/

/-- The value of the Authorization header for a challenge: what NewDigest, Authenticate and the function it returns give. -/
def credentials (w : World) (s : Sess) (verb challenge : Bytes) : Option Bytes :=
  match newDigest s.baseURI challenge, s.user with
  | .ok d, some (u, p) =>
    match authenticate w.md5 (w.rnd s.out) d u p with
    | .ok (f, d) => match authCall w.md5 f d verb [] with
      | .ok (a, _) => some a
      | .error _ => none
    | .error _ => none
  | _, _ => none

/-- C58, exactly: after a 401 to a pending request for which there are credentials, one request is written: it has the verb, URI and headers of
the refused one, the credentials, and the CSeq of the latest new request. It is pending under this CSeq, the
refused one is not, all others are as before. -/
theorem C58_exact (w : World) (s s' : Sess) (h : Reachable w s) (rsp : Response) (req : Request) (e : Option SErr)
    (hp : pending rsp.cseq s.out = some req) (h401 : rsp.statusCode = 401) (a : Bytes)
    (ha : credentials w { s with out := .got rsp :: s.out } req.verb (rsp.header.get b!"WWW-Authenticate") = some a)
    (hs : step w s (.item (.response rsp)) = .ok (s', e)) :
    ∃ again res, s'.out = .sent true again res :: .got rsp :: s.out ∧ again.verb = req.verb ∧ again.uri = req.uri ∧ again.header = req.header ∧
      again.auth = a ∧ again.cseq = (newSeqs s.out).length ∧
      (e = none ↔ res = .ok) ∧
      ∀ c, pending c s'.out = if c = again.cseq then some again else if c = rsp.cseq then none else pending c s.out := by
  have inv := inv_reachable h
  have hf : s.find rsp.cseq = some req := by rw [inv.find]; exact hp
  -- the credentials
  obtain ⟨d, u, p, f, d1, d2, hd, hu, h1, h2⟩ : ∃ d u p f d1 d2, newDigest s.baseURI (rsp.header.get b!"WWW-Authenticate") = .ok d ∧ s.user = some (u, p) ∧
      authenticate w.md5 (w.rnd (.got rsp :: s.out)) d u p = .ok (f, d1) ∧ authCall w.md5 f d1 req.verb [] = .ok (a, d2) := by
    unfold credentials at ha
    dsimp only at ha
    split at ha
    · next d u p hd hu =>
      split at ha
      · next f d1 h1 =>
        split at ha
        · next a' d2 h2 =>
          injection ha with ha
          subst ha
          exact ⟨d, u, p, f, d1, d2, hd, hu, h1, h2⟩
        · cases ha
      · cases ha
    · cases ha
  -- what is written
  have h : handleRtsp w { s with out := .got rsp :: s.out } rsp = .ok (s', e) := hs
  unfold handleRtsp at h
  rw [show ({ s with out := .got rsp :: s.out } : Sess).find rsp.cseq = some req from hf] at h
  dsimp only at h
  rw [if_pos h401] at h
  unfold retry authorize at h
  dsimp only [Sess.remove] at h
  rw [hd, hu] at h
  dsimp only at h
  rw [h1] at h
  dsimp only [pure, Except.pure] at h
  unfold callAuth at h
  dsimp only at h
  rw [h2] at h
  dsimp only [enqueue, pure, Except.pure] at h
  obtain ⟨_, h3, h4⟩ := writeReq_out h
  subst h3
  refine ⟨{ req with auth := a, cseq := s.cseq, session := s.session }, _, rfl, rfl, rfl, rfl, rfl, ?_, ?_, ?_⟩
  · show (s.cseq : Int) = _
    rw [inv.seqs]
  · rw [h4]
    dsimp only
    generalize w.write _ _ = res
    cases res <;> simp
  · intro c
    show pending c (.sent true { req with auth := a, cseq := s.cseq, session := s.session } _ :: .got rsp :: s.out) = _
    rw [pending, pending]
    dsimp only
    by_cases h1 : (s.cseq : Int) = c
    · rw [if_pos h1, if_pos h1.symm]
    · rw [if_neg h1, if_neg (show ¬ c = (s.cseq : Int) from fun e => h1 e.symm)]
      by_cases h2 : rsp.cseq = c
      · rw [if_pos h2, if_pos h2.symm]
      · rw [if_neg h2, if_neg (show ¬ c = rsp.cseq from fun e => h2 e.symm)]

/-- C58, what holds: if the refused request is the latest one, the same request is sent again with the credentials, and no other
request is affected. -/
theorem C58_latest_partial (w : World) (s s' : Sess) (h : Reachable w s) (rsp : Response) (req : Request) (e : Option SErr)
    (hp : pending rsp.cseq s.out = some req) (h401 : rsp.statusCode = 401) (hlast : rsp.cseq = (newSeqs s.out).length) (a : Bytes)
    (ha : credentials w { s with out := .got rsp :: s.out } req.verb (rsp.header.get b!"WWW-Authenticate") = some a)
    (hs : step w s (.item (.response rsp)) = .ok (s', e)) :
    ∃ again res, s'.out = .sent true again res :: .got rsp :: s.out ∧ again.verb = req.verb ∧ again.uri = req.uri ∧ again.header = req.header ∧
      again.auth = a ∧ again.cseq = req.cseq ∧ pending rsp.cseq s'.out = some again ∧
      ∀ c, c ≠ rsp.cseq → pending c s'.out = pending c s.out := by
  obtain ⟨again, res, h1, h2, h3, h4, h5, h6, h7, h8⟩ := C58_exact w s s' h rsp req e hp h401 a ha hs
  have hr := (inv_reachable h).range _ _ hp
  refine ⟨again, res, h1, h2, h3, h4, h5, by rw [h6, ← hlast, hr.2.2.2], ?_, fun c hc => ?_⟩
  · rw [h8, if_pos (by rw [h6, hlast])]
  · rw [h8, if_neg (by rw [h6, ← hlast]; exact hc), if_neg hc]

example : ∃ (s : Sess) (rsp : Response) (req : Request) (a : Bytes), Reachable demoWorld s ∧ pending rsp.cseq s.out = some req ∧ rsp.statusCode = 401 ∧ rsp.cseq = (newSeqs s.out).length ∧
    credentials demoWorld { s with out := .got rsp :: s.out } req.verb (rsp.header.get b!"WWW-Authenticate") = some a ∧ a = b!"Basic dTpw" :=
  ⟨_, demoRsp 1 401 [(b!"Www-Authenticate", b!"Basic realm=\"r\"")] none, _, _, ⟨[demoOpen], rfl⟩, rfl, rfl, rfl, by decide, rfl⟩

/-- C58 fails whenever another request is pending that was made later: the refused request takes the CSeq of the latest one, which is no
longer pending afterwards. -/
theorem C58_overwritten_refuted (w : World) (s s' : Sess) (h : Reachable w s) (rsp : Response) (req other : Request) (e : Option SErr)
    (hp : pending rsp.cseq s.out = some req) (h401 : rsp.statusCode = 401) (hne : rsp.cseq ≠ (newSeqs s.out).length)
    (hother : pending (newSeqs s.out).length s.out = some other) (hv : other.verb ≠ req.verb ∨ other.uri ≠ req.uri) (a : Bytes)
    (ha : credentials w { s with out := .got rsp :: s.out } req.verb (rsp.header.get b!"WWW-Authenticate") = some a)
    (hs : step w s (.item (.response rsp)) = .ok (s', e)) :
    pending rsp.cseq s'.out = none ∧ ∀ c, pending c s'.out ≠ some other := by
  obtain ⟨again, res, h1, h2, h3, h4, h5, h6, h7, h8⟩ := C58_exact w s s' h rsp req e hp h401 a ha hs
  refine ⟨by rw [h8, if_neg (by rw [h6]; exact hne), if_pos rfl], fun c hc => ?_⟩
  rw [h8] at hc
  split at hc
  · injection hc with hc
    subst hc
    rcases hv with hv | hv
    · exact hv h2
    · exact hv h3
  · split at hc
    · cases hc
    · next hn _ =>
      have inv := inv_reachable h
      have e1 := (inv.range _ _ hc).2.2.2
      have e2 := (inv.range _ _ hother).2.2.2
      exact hn (by rw [h6, ← e2, e1])

example : ∃ (s : Sess) (rsp : Response) (req other : Request) (a : Bytes), Reachable demoWorld s ∧ pending rsp.cseq s.out = some req ∧ rsp.statusCode = 401 ∧
    rsp.cseq ≠ (newSeqs s.out).length ∧ pending (newSeqs s.out).length s.out = some other ∧ other.verb ≠ req.verb ∧
    credentials demoWorld { s with out := .got rsp :: s.out } req.verb (rsp.header.get b!"WWW-Authenticate") = some a :=
  ⟨_, demoRsp 1 401 [(b!"Www-Authenticate", b!"Basic realm=\"r\"")] none, _, _, b!"Basic dTpw", ⟨[demoOpen, .play], rfl⟩, rfl, rfl, by decide, rfl, by decide, by decide⟩

/-- C58 fails as stated: OPTIONS and PLAY are pending, the OPTIONS is refused; then no PLAY is pending any more. -/
theorem C58_refuted : ∃ s, run demoWorld newSession [demoOpen, .play] = .ok s ∧ (pending 2 s.out).map (·.verb) = some b!"PLAY" ∧
    ∃ s', step demoWorld s (demo401 1) = .ok (s', none) ∧ (pending 2 s'.out).map (·.verb) = some b!"OPTIONS" ∧ pending 1 s'.out = none :=
  ⟨_, rfl, by decide, _, rfl, by decide, by decide⟩

/-! ## C59 -/

/-- C59: Play, Pause and Done are reported only right after a 200 response to a pending PLAY, PAUSE or TEARDOWN. (Ready: Props/Setup.) -/
theorem C59_granted (w : World) (s : Sess) (h : Reachable w s) (a b : List Out) (st : Nat) (ho : s.out = a ++ .notified st :: b) (hst : st ≠ 1) :
    ∃ rsp before req, b = .got rsp :: before ∧ pending rsp.cseq before = some req ∧ rsp.statusCode = 200 ∧
      ((st = 2 ∧ req.verb = b!"PLAY") ∨ (st = 3 ∧ req.verb = b!"PAUSE") ∨ (st = 4 ∧ req.verb = b!"TEARDOWN")) := by
  have hp := (inv_reachable h).past
  rw [ho] at hp
  obtain ⟨rsp, b', req, h1, h2, h3, h4⟩ := (Past.at hp : Fact (.notified st) b) hst
  refine ⟨rsp, b', req, h1, h2, h3, ?_⟩
  unfold stageAfter at h4
  split at h4
  · next hv => injection h4 with h4; exact .inl ⟨h4.symm, hv⟩
  · split at h4
    · next hv => injection h4 with h4; exact .inr (.inl ⟨h4.symm, hv⟩)
    · split at h4
      · next hv => injection h4 with h4; exact .inr (.inr ⟨h4.symm, hv⟩)
      · cases h4

example : ∃ (s : Sess) (a b : List Out), Reachable demoWorld s ∧ s.out = a ++ .notified 3 :: b ∧ a.length = 2 :=
  ⟨_, [_, _], _, ⟨[demoOpen, .pause, demoGot 2 200 [] none, .play, .teardown], rfl⟩, rfl, rfl⟩

/-- C59, the other direction: a 200 response to a pending PLAY, PAUSE or TEARDOWN is always reported. -/
theorem C59_reported (w : World) (s : Sess) (h : Reachable w s) (rsp : Response) (req : Request) (st : Nat) (hp : pending rsp.cseq s.out = some req)
    (h200 : rsp.statusCode = 200) (hst : stageAfter req.verb = some st) :
    ∃ s', step w s (.item (.response rsp)) = .ok (s', none) ∧ s'.out = .notified st :: .got rsp :: s.out := by
  have hf : s.find rsp.cseq = some req := by rw [(inv_reachable h).find]; exact hp
  show ∃ s', handleRtsp w { s with out := .got rsp :: s.out } rsp = .ok (s', none) ∧ _
  unfold handleRtsp
  rw [show ({ s with out := .got rsp :: s.out } : Sess).find rsp.cseq = some req from hf]
  dsimp only
  rw [if_neg (by rw [h200]; decide), learnSession_eq]
  unfold answer
  unfold stageAfter at hst
  by_cases h1 : req.verb = b!"PLAY"
  · rw [if_pos h1] at hst
    injection hst with hst
    rw [h1, if_neg (by decide), if_neg (by decide), if_neg (by decide), if_pos (by decide), if_pos h200, ← hst]
    exact ⟨_, rfl, rfl⟩
  · rw [if_neg h1] at hst
    by_cases h2 : req.verb = b!"PAUSE"
    · rw [if_pos h2] at hst
      injection hst with hst
      rw [h2, if_neg (by decide), if_neg (by decide), if_pos (by decide), if_pos h200, ← hst]
      exact ⟨_, rfl, rfl⟩
    · rw [if_neg h2] at hst
      by_cases h3 : req.verb = b!"TEARDOWN"
      · rw [if_pos h3] at hst
        injection hst with hst
        rw [h3, if_neg (by decide), if_neg (by decide), if_neg (by decide), if_neg (by decide), if_pos (by decide), if_pos h200, ← hst]
        exact ⟨_, rfl, rfl⟩
      · rw [if_neg h3] at hst; cases hst

example : ∃ (s : Sess) (rsp : Response) (req : Request), Reachable demoWorld s ∧ pending rsp.cseq s.out = some req ∧ rsp.statusCode = 200 ∧ stageAfter req.verb = some 2 :=
  ⟨_, demoRsp 2 200 [] none, _, ⟨[demoOpen, .play], rfl⟩, rfl, rfl, by decide⟩

/-! ## C64 -/

/-- Without CR. -/
def NoCR (b : Bytes) : Prop := (13 : UInt8) ∉ b

/-- C64: in every history, every DESCRIBE, PLAY, PAUSE and TEARDOWN sent (again) after the server assigned a session identifier carries exactly
this identifier, without its parameters, as its only Session header, as a server reads it. Required: the URI is one word and the
texts have no CR (else it is not a request). -/
theorem C64_session (w : World) (s : Sess) (h : Reachable w s) (a b : List Out) (r : Bool) (req : Request) (res : IORes)
    (ho : s.out = a ++ .sent r req res :: b) (hv : req.verb ≠ b!"OPTIONS" ∧ req.verb ≠ b!"SETUP") (hid : sessionId b ≠ [])
    (hu : IsWord req.uri) (hs : NoCR (sessionId b)) (ha : NoCR req.auth) :
    ∃ got, serverRead (req.pack req.header) = some got ∧ got.headers.filter (fun e => sameName e.1 b!"Session") = [(b!"Session", sessionId b)] := by
  have hp := (inv_reachable h).past
  rw [ho] at hp
  have hf : req.session = sessionId b ∧ Shape req := by
    have := (Past.at hp : Fact (.sent r req res) b)
    cases r with
    | true => exact ⟨this.1, this.2.1⟩
    | false => exact ⟨this.1, this.2.1⟩
  obtain ⟨hses, hsh⟩ := hf
  have hshape : IsWord req.verb ∧ (∀ e ∈ req.header, (58 : UInt8) ∉ e.1 ∧ (13 : UInt8) ∉ e.1 ∧ (13 : UInt8) ∉ e.2) ∧
      req.header.filter (fun e => sameName e.1 b!"Session") = [] := by
    cases hsh with
    | options h1 _ => exact absurd h1 hv.1
    | keepAlive h1 _ => exact absurd h1 hv.1
    | describe h1 h2 => rw [h1, h2]; exact ⟨⟨by decide, by decide⟩, by decide, by decide⟩
    | setup h1 _ => exact absurd h1 hv.2
    | other h1 h2 =>
      rw [h2]
      refine ⟨?_, by decide, rfl⟩
      rcases h1 with h1 | h1 | h1 <;> (rw [h1]; exact ⟨by decide, by decide⟩)
  refine ⟨_, C49_request req req.header (List.Perm.refl _) hshape.1 hu hshape.2.1 (by rw [hses]; exact hs) ha, ?_⟩
  dsimp only
  rw [if_pos ⟨by rw [hses]; exact hid, hv.1, hv.2⟩, hses]
  simp only [List.filter_append, hshape.2.2]
  have e1 : ∀ x : Bytes, [(b!"CSeq", x)].filter (fun e => sameName e.1 b!"Session") = [] := fun x => by
    rw [List.filter_cons_of_neg (by simp only [decide_eq_true_eq]; exact show ¬ sameName b!"CSeq" b!"Session" by decide)]; rfl
  have e2 : ∀ x : Bytes, [(b!"Session", x)].filter (fun e => sameName e.1 b!"Session") = [(b!"Session", x)] := fun x => by
    rw [List.filter_cons_of_pos (by simp only [decide_eq_true_eq]; exact show sameName b!"Session" b!"Session" by decide)]; rfl
  have e3 : (if req.auth ≠ [] then [(b!"Authorization", req.auth)] else []).filter (fun e => sameName e.1 b!"Session") = [] := by
    split
    · rw [List.filter_cons_of_neg (by simp only [decide_eq_true_eq]; exact show ¬ sameName b!"Authorization" b!"Session" by decide)]; rfl
    · rfl
  rw [e1, e2, e3]
  rfl

example : ∃ (s : Sess) (a b : List Out) (req : Request), Reachable demoWorld s ∧ s.out = a ++ .sent false req .ok :: b ∧
    req.verb = b!"PAUSE" ∧ sessionId b = b!"12345678" ∧ IsWord req.uri ∧ NoCR (sessionId b) ∧ NoCR req.auth := by
  refine ⟨_, [], _, _, ⟨[demoOpen, .play, demoGot 2 200 [(b!"Session", b!"12345678;timeout=60")] none, .pause], rfl⟩, rfl, ?_, ?_, ?_, ?_, ?_⟩
  · decide
  · decide
  · exact ⟨by decide, by decide⟩
  · exact show (13 : UInt8) ∉ _ by decide
  · exact show (13 : UInt8) ∉ _ by decide

/-! ## C60 -/

theorem digestResponse_ok (md5 : Bytes → Bytes) (d : Digest) (verb body : Bytes) : ∃ r, digestResponse md5 d verb body = .ok r := by
  unfold digestResponse
  simp only [colonnade_ok, bind, Except.bind, pure, Except.pure]
  by_cases h1 : d.qop = b!"auth-int" <;> by_cases h2 : d.qop = [] <;> by_cases h3 : d.algorithm = b!"md5-sess" <;>
    simp only [h1, h2, h3, if_true, if_false, reduceIte] <;> (repeat' split) <;> first | exact ⟨_, rfl⟩ | simp_all

theorem authCall_ok (md5 : Bytes → Bytes) (f : AuthFunc) (d : Digest) (verb body : Bytes) : ∃ r, authCall md5 f d verb body = .ok r := by
  cases f with
  | basic a => exact ⟨_, rfl⟩
  | digest a =>
    obtain ⟨r, h⟩ := digestResponse_ok md5 d verb body
    unfold authCall
    dsimp only
    rw [h]
    exact ⟨_, rfl⟩

theorem authenticate_ok (md5 : Bytes → Bytes) (rnd : Bytes) (d : Digest) (u p : Bytes) : ∃ r, authenticate md5 rnd d u p = .ok r := by
  unfold authenticate
  split
  · rw [colonnade_ok]; exact ⟨_, rfl⟩
  · rw [colonnade_ok]; exact ⟨_, rfl⟩

/-- C60 fails for every server that goes on refusing: whatever is pending last, with credentials and a challenge of a known kind, for
every number of 401 responses the request is sent again as many times, and there is never an error. -/
theorem C60_refuted (w : World) (hw : ∀ o b, w.write o b = .ok) (rsp : Response) (h401 : rsp.statusCode = 401) (n : Nat) :
    ∀ (s : Sess) (_ : s.find rsp.cseq ≠ none) (_ : (s.cseq : Int) = rsp.cseq) (_ : s.proto ≠ .http) (_ : s.user ≠ none)
      (_ : ∃ d, newDigest s.baseURI (rsp.header.get b!"WWW-Authenticate") = .ok d),
    ∃ s', Runs w s (List.replicate n (.item (.response rsp))) s' ∧ retries s'.out = retries s.out + n := by
  induction n with
  | zero => intro s _ _ _ _ _; exact ⟨s, .nil s, rfl⟩
  | succ n ih =>
    intro s hf hc hp hu hd
    obtain ⟨d, hd⟩ := hd
    obtain ⟨req, hf⟩ : ∃ req, s.find rsp.cseq = some req := by
      cases h : s.find rsp.cseq with
      | none => exact absurd h hf
      | some req => exact ⟨req, rfl⟩
    obtain ⟨⟨u, p⟩, hu⟩ : ∃ up, s.user = some up := by
      cases h : s.user with
      | none => exact absurd h hu
      | some up => exact ⟨up, rfl⟩
    obtain ⟨⟨f, d1⟩, h1⟩ := authenticate_ok w.md5 (w.rnd (.got rsp :: s.out)) d u p
    obtain ⟨⟨a, d2⟩, h2⟩ := authCall_ok w.md5 f d1 req.verb []
    let again : Request := { req with auth := a, cseq := s.cseq, session := s.session }
    let t : Sess := { s with user := some (u, p), auth := some (f, d2), queue := insertReq (s.queue.filter fun e => e.1 ≠ rsp.cseq) again, out := .sent true again .ok :: .got rsp :: s.out }
    have hstep : step w s (.item (.response rsp)) = .ok (t, none) := by
      show handleRtsp w { s with out := .got rsp :: s.out } rsp = _
      unfold handleRtsp
      rw [show ({ s with out := .got rsp :: s.out } : Sess).find rsp.cseq = some req from hf]
      dsimp only
      rw [if_pos h401]
      unfold retry authorize
      dsimp only [Sess.remove]
      rw [hd, hu]
      dsimp only
      rw [h1]
      dsimp only [pure, Except.pure]
      unfold callAuth
      dsimp only
      rw [h2]
      dsimp only [enqueue, pure, Except.pure]
      unfold writeReq
      dsimp only
      rw [if_neg hp, hw]
      rfl
    obtain ⟨s', h3, h4⟩ := ih t (by
        rw [show t.find rsp.cseq = _ from find_insert _ again rsp.cseq, if_pos hc]; simp) hc hp (by show some (u, p) ≠ none; simp) ⟨d, hd⟩
    refine ⟨s', ?_, ?_⟩
    · rw [List.replicate_succ]
      exact .cons hstep h3
    · rw [h4]
      show retries s.out + 1 + n = _
      omega

/-- The hypotheses are met right after `Open`. -/
example : ∃ (s : Sess) (rsp : Response), Reachable demoWorld s ∧ rsp.statusCode = 401 ∧ s.find rsp.cseq ≠ none ∧ (s.cseq : Int) = rsp.cseq ∧ s.proto ≠ .http ∧
    s.user ≠ none ∧ ∃ d, newDigest s.baseURI (rsp.header.get b!"WWW-Authenticate") = .ok d :=
  ⟨_, demoRsp 1 401 [(b!"Www-Authenticate", b!"Basic realm=\"r\"")] none, ⟨[demoOpen], rfl⟩, rfl, by decide, rfl, by decide, by decide,
    ⟨{ basic := true, uri := b!"rtsp://h/x", algorithm := b!"md5", realm := b!"r" }, by decide⟩⟩

end Ouro
