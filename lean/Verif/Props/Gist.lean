import Verif.Props.Session
import Verif.Props.Message
import Verif.Spec.Gist
/-!
# C130: only so much of a response matters
-/
namespace Ouro
open Spec

/-- The session as if the responses had had nothing else. -/
def muted (s : Sess) : Sess := { s with out := s.out.map gistOut }

/-- The same of a result. -/
def mutedR (r : Go (Sess × Option SErr)) : Go (Sess × Option SErr) :=
  match r with
  | .ok (s, e) => .ok (muted s, e)
  | .error p => .error p

section
variable {w : World} (hb : Deaf w)
include hb

theorem muted_writeReq (s : Sess) (retry : Bool) (req : Request) : writeReq w (muted s) retry req = mutedR (writeReq w s retry req) := by
  unfold writeReq
  show (if s.proto = .http then _ else _) = _
  split
  · rfl
  · dsimp only
    rw [show (muted s).out = s.out.map gistOut from rfl, hb.write]
    cases w.write s.out (req.pack req.header) <;> rfl

omit hb in
theorem muted_callAuth (s : Sess) (verb : Bytes) :
    callAuth w (muted s) verb = (match callAuth w s verb with | .ok (a, s) => .ok (a, muted s) | .error p => .error p) := by
  unfold callAuth
  rw [show (muted s).auth = s.auth from rfl]
  rcases s.auth with _ | ⟨f, d⟩
  · rfl
  · dsimp only
    rcases authCall w.md5 f d verb [] with _ | ⟨_, _⟩ <;> rfl

theorem muted_command (s : Sess) (verb uri : Bytes) (headers : Header) : command w (muted s) verb uri headers = mutedR (command w s verb uri headers) := by
  unfold command
  rw [show (muted s).opened = s.opened from rfl]
  split
  · rfl
  · rw [muted_callAuth]
    rcases callAuth w s verb with _ | ⟨a, s1⟩
    · rfl
    · exact muted_writeReq hb (enqueue { s1 with cseq := s1.cseq + 1 } { verb, uri, auth := a, header := headers.foldl (fun h e => h.set e.1 e.2) [] }).2 false _

omit hb in
theorem muted_deref {s : Sess} {k k' : Go (Sess × Option SErr)} (h : k' = mutedR k) : (muted s).deref k' = mutedR (s.deref k) := by
  unfold Sess.deref
  rw [show (muted s).opened = s.opened from rfl]
  split
  · rfl
  · exact h

theorem muted_setupLoop (fs : List Feed) : ∀ (done : List Feed) (s : Sess), setupLoop w done fs (muted s) = mutedR (setupLoop w done fs s) := by
  induction fs with
  | nil => intro done s; rfl
  | cons f fs ih =>
    intro done s
    rw [setupLoop, setupLoop, show (muted s).baseURI = s.baseURI from rfl, muted_command hb]
    rcases command w s verbSetup (setupURI s.baseURI f.media.control) [(b!"Transport", f.transportHeader)] with _ | ⟨s1, _ | e⟩
    · rfl
    · exact ih _ { s1 with feeds := done ++ { f with cseq := s1.cseq } :: fs }
    · rfl

theorem muted_addSink (s : Sess) (ch : UInt8) (port : Int) : addSink w (muted s) ch port = (muted (addSink w s ch port).1, (addSink w s ch port).2) := by
  unfold addSink
  rw [show (muted s).out = s.out.map gistOut from rfl, show (muted s).sinks = s.sinks from rfl, hb.listen]
  cases w.listen s.out s.sinks port <;> rfl

theorem muted_setupAnswer (rsp : Response) (fs : List Feed) : ∀ (done : List Feed) (s : Sess),
    setupAnswer w rsp done fs (muted s) = mutedR (setupAnswer w rsp done fs s) := by
  induction fs with
  | nil => intro done s; rfl
  | cons f fs ih =>
    intro done s
    rw [setupAnswer, setupAnswer]
    split
    · rcases f.transportSetup w.inf (rsp.header.get b!"Transport") with _ | ⟨f', _ | e⟩
      · rfl
      · dsimp only
        split
        · exact ih _ { s with feedidx := s.feedidx + 1, feeds := done ++ f' :: fs }
        · obtain ⟨s1, e1⟩ : ∃ s1, s1 = { s with feedidx := s.feedidx + 1, feeds := done ++ f' :: fs } := ⟨_, rfl⟩
          have e2 : muted s1 = { muted s with feedidx := (muted s).feedidx + 1, feeds := done ++ f' :: fs } := by rw [e1]; rfl
          rw [← e1, ← e2, muted_addSink hb, show (muted s).feedidx = s.feedidx from rfl]
          rcases addSink w s1 (UInt8.ofNat (s.feedidx + 1) * 2) f'.transp.port.one with ⟨s2, _ | e⟩
          · dsimp only
            rw [muted_addSink hb]
            rcases addSink w s2 (UInt8.ofNat (s.feedidx + 1) * 2 + 1) f'.transp.port.two with ⟨s3, _ | e⟩
            · exact ih _ s3
            · rfl
          · rfl
      · rfl
    · exact ih _ s

omit hb in
theorem muted_checkReady (s : Sess) : checkReady (muted s) = muted (checkReady s) := by
  unfold checkReady
  rw [show (muted s).feedidx = s.feedidx from rfl, show (muted s).feeds = s.feeds from rfl]
  split <;> rfl

theorem muted_handleSetup (s : Sess) (rsp : Response) : handleSetup w (muted s) rsp = mutedR (handleSetup w s rsp) := by
  unfold handleSetup
  split
  · rw [show (muted s).feeds = s.feeds from rfl, muted_setupAnswer hb]
    rcases setupAnswer w rsp [] s.feeds s with _ | ⟨s1, _ | e⟩
    · rfl
    · show pure (checkReady (muted s1), none) = _
      rw [muted_checkReady]; rfl
    · rfl
  · split
    · show pure (checkReady (muted { s with feedidx := s.feedidx + 1 }), none) = _
      rw [muted_checkReady]; rfl
    · rw [muted_checkReady]; rfl

theorem muted_authorize (s : Sess) (challenge : Bytes) : authorize w (muted s) challenge = mutedR (authorize w s challenge) := by
  unfold authorize
  rw [show (muted s).baseURI = s.baseURI from rfl, show (muted s).user = s.user from rfl, show (muted s).out = s.out.map gistOut from rfl, hb.rnd]
  rcases newDigest s.baseURI challenge with _ | d
  · rfl
  · rcases s.user with _ | ⟨u, p⟩
    · rfl
    · dsimp only
      rcases authenticate w.md5 (w.rnd s.out) d u p with _ | ⟨_, _⟩ <;> rfl

theorem muted_retry (s : Sess) (req : Request) (challenge : Bytes) : retry w (muted s) req challenge = mutedR (retry w s req challenge) := by
  unfold retry
  rw [muted_authorize hb]
  rcases authorize w s challenge with _ | ⟨s1, _ | e⟩
  · rfl
  · dsimp only [mutedR]
    rw [muted_callAuth]
    rcases callAuth w s1 req.verb with _ | ⟨a, s2⟩
    · rfl
    · exact muted_writeReq hb (enqueue s2 { req with auth := a }).2 true _
  · rfl

omit hb in
theorem muted_learn (s : Sess) (v : Bytes) : learnSession (muted s) v = muted (learnSession s v) := by
  unfold learnSession
  split
  · cases split 59 v <;> rfl
  · rfl

theorem muted_answer (s : Sess) (verb : Bytes) (rsp : Response) : answer w (muted s) verb rsp = mutedR (answer w s verb rsp) := by
  unfold answer
  rw [show (muted s).stage = s.stage from rfl, show (muted s).proto = s.proto from rfl]
  split
  · split
    · exact muted_deref (s := { s with verbs := s.verbs ++ split2 44 32 (rsp.header.get b!"Public") })
        (muted_command hb { s with verbs := s.verbs ++ split2 44 32 (rsp.header.get b!"Public") } _ _ _)
    · rfl
  · split
    · cases rsp.body with
      | none => rfl
      | some body =>
        dsimp only
        rcases parseFeeds s.proto body with _ | feeds
        · rfl
        · exact muted_setupLoop hb feeds [] { s with feeds := feeds }
    · split
      · split <;> rfl
      · split
        · split <;> rfl
        · split
          · split <;> rfl
          · split
            · exact muted_handleSetup hb s rsp
            · rfl

theorem muted_handleRtsp (s : Sess) (rsp : Response) : handleRtsp w (muted s) rsp = mutedR (handleRtsp w s rsp) := by
  unfold handleRtsp
  rw [show (muted s).find rsp.cseq = s.find rsp.cseq from rfl, show (muted s).remove rsp.cseq = muted (s.remove rsp.cseq) from rfl]
  cases s.find rsp.cseq with
  | none => rfl
  | some req =>
    dsimp only
    split
    · exact muted_retry hb _ _ _
    · rw [muted_learn]; exact muted_answer hb _ _ _


omit hb in
theorem four_get (a b c d : Bytes) : Header.get [(b!"Public", a), (b!"Session", b), (b!"Transport", c), (b!"Www-Authenticate", d)] b!"Public" = a ∧
    Header.get [(b!"Public", a), (b!"Session", b), (b!"Transport", c), (b!"Www-Authenticate", d)] b!"Session" = b ∧
    Header.get [(b!"Public", a), (b!"Session", b), (b!"Transport", c), (b!"Www-Authenticate", d)] b!"Transport" = c ∧
    Header.get [(b!"Public", a), (b!"Session", b), (b!"Transport", c), (b!"Www-Authenticate", d)] b!"WWW-Authenticate" = d := by
  have k : canonKey b!"Public" = b!"Public" ∧ canonKey b!"Session" = b!"Session" ∧ canonKey b!"Transport" = b!"Transport" ∧
      canonKey b!"WWW-Authenticate" = b!"Www-Authenticate" := by decide +kernel
  obtain ⟨k1, k2, k3, k4⟩ := k
  unfold Header.get Header.at
  rw [k1, k2, k3, k4]
  exact ⟨rfl, rfl, rfl, rfl⟩

omit hb in
theorem gist_get (rsp : Response) : (gist rsp).header.get b!"Public" = rsp.header.get b!"Public" ∧ (gist rsp).header.get b!"Session" = rsp.header.get b!"Session" ∧
    (gist rsp).header.get b!"Transport" = rsp.header.get b!"Transport" ∧ (gist rsp).header.get b!"WWW-Authenticate" = rsp.header.get b!"WWW-Authenticate" :=
  four_get _ _ _ _

omit hb in
theorem gist_setupAnswer (rsp : Response) (fs : List Feed) : ∀ (done : List Feed) (s : Sess), setupAnswer w (gist rsp) done fs s = setupAnswer w rsp done fs s := by
  induction fs with
  | nil => intro done s; rfl
  | cons f fs ih =>
    intro done s
    rw [setupAnswer, setupAnswer, (gist_get rsp).2.2.1]
    simp only [ih]
    rfl

omit hb in
theorem gist_handleRtsp (s : Sess) (rsp : Response) : handleRtsp w s (gist rsp) = handleRtsp w s rsp := by
  obtain ⟨g1, g2, g3, g4⟩ := gist_get rsp
  unfold handleRtsp
  rw [g2, g4]
  show (match s.find rsp.cseq with | none => _ | some req => if rsp.statusCode = 401 then _ else _) = _
  cases s.find rsp.cseq with
  | none => rfl
  | some req =>
    dsimp only
    split
    · rfl
    · unfold answer handleSetup
      rw [g1]
      simp only [gist_setupAnswer]
      rfl

theorem muted_step (s : Sess) (op : Op) : step w (muted s) (gistOp op) = mutedR (step w s op) := by
  cases op with
  | dial uri proto user => rfl
  | open_ uri proto user =>
    exact muted_deref (s := { s with opened := true, baseURI := uri, proto := proto, user := user, sinks := [] })
      (muted_command hb { s with opened := true, baseURI := uri, proto := proto, user := user, sinks := [] } _ _ _)
  | options => exact muted_deref (muted_command hb s _ _ _)
  | describe => exact muted_deref (muted_command hb s _ _ _)
  | setup => exact muted_setupLoop hb s.feeds [] s
  | play => exact muted_deref (muted_command hb s _ _ _)
  | pause => exact muted_deref (muted_command hb s _ _ _)
  | teardown => exact muted_deref (muted_command hb s _ _ _)
  | keepAlive due =>
    refine muted_deref (s := s) ?_
    rw [show (muted s).proto = s.proto from rfl, show (muted s).stage = s.stage from rfl]
    split
    · exact muted_command hb s _ _ _
    · rfl
  | item i =>
    cases i with
    | frame ch p => rfl
    | response rsp =>
      show handleRtsp w (muted { s with out := .got rsp :: s.out }) (gist rsp) = _
      rw [gist_handleRtsp]
      exact muted_handleRtsp hb { s with out := .got rsp :: s.out } rsp

/-- C130: a history goes as the one with the responses reduced to their gist. -/
theorem C130_run (ops : List Op) : ∀ s, run w (muted s) (ops.map gistOp) =
    (match run w s ops with | .ok s' => .ok (muted s') | .error p => .error p) := by
  induction ops with
  | nil => intro s; rfl
  | cons op ops ih =>
    intro s
    rw [List.map_cons, run, run, muted_step hb s op]
    rcases step w s op with _ | ⟨s1, e⟩
    · rfl
    · exact ih s1

/-- C130: two histories that differ only in what responses say besides code, number, body and the four headers: both panic, or both end in the same
state, having sent and notified the same in the same order and received the same but for that, and any further call returns the same. -/
theorem C130_exact (ops ops' : List Op) (hops : ops.map gistOp = ops'.map gistOp) :
    (∀ p, run w newSession ops = .error p ↔ run w newSession ops' = .error p) ∧
    ∀ s, run w newSession ops = .ok s → ∃ s', run w newSession ops' = .ok s' ∧ s'.out.map gistOut = s.out.map gistOut ∧ s' = { s with out := s'.out } ∧
      ∀ op op', gistOp op = gistOp op' → (step w s' op').map (·.2) = (step w s op).map (·.2) := by
  have h1 := C130_run hb ops newSession
  have h2 := C130_run hb ops' newSession
  rw [hops, h2] at h1
  cases e1 : run w newSession ops with
  | error q =>
    cases e2 : run w newSession ops' with
    | error q' =>
      rw [e1, e2] at h1
      injection h1 with h1
      subst h1
      exact ⟨fun p => Iff.rfl, fun s h => by cases h⟩
    | ok s' => rw [e1, e2] at h1; cases h1
  | ok s =>
    cases e2 : run w newSession ops' with
    | error q' => rw [e1, e2] at h1; cases h1
    | ok s' =>
      rw [e1, e2] at h1
      have hm : muted s' = muted s := by injection h1
      refine ⟨fun p => ⟨fun h => by (cases h), fun h => by (cases h)⟩, fun t ht => ?_⟩
      injection ht with ht
      subst ht
      refine ⟨s', rfl, congrArg Sess.out hm, ?_, fun op op' hop => ?_⟩
      · have : { muted s' with out := s'.out } = { muted s with out := s'.out } := by rw [hm]
        exact this
      · have a := muted_step hb s op
        have b := muted_step hb s' op'
        rw [hm, ← hop, a] at b
        have b := congrArg (fun x => x.map (·.2)) b
        have c : ∀ x : Go (Sess × Option SErr), (mutedR x).map (·.2) = x.map (·.2) := fun x => by rcases x with _ | ⟨_, _⟩ <;> rfl
        rw [c, c] at b
        exact b.symm

end

/-- C130: on the wire. Two well-formed responses of the same code with the same body (at most 2048 bytes) and the same value of CSeq, Public, Session,
Transport and WWW-Authenticate, whatever their phrases, their other headers and the order and writing of all of them: both are read, up to their
ends, and what is read has the same gist. -/
theorem C130_text (a b : Sent) (ha : a.WF) (hb : b.WF) (hlen : a.body.length ≤ 2048) (cseq : Nat) (hseq : cseq < 2 ^ 63)
    (hc : a.value b!"CSeq" = some (natDigits cseq)) (hcode : b.code = a.code) (hbody : b.body = a.body)
    (hv : ∀ n ∈ [b!"CSeq", b!"Public", b!"Session", b!"Transport", b!"WWW-Authenticate"], b.value n = a.value n)
    (r r' : Rdr) (rest rest' : List Ev) (he : r.err = none) (he' : r'.err = none) (hr : r.evs = a.text.map .byte ++ rest)
    (hr' : r'.evs = b.text.map .byte ++ rest') :
    ∃ x y q q', unpackRsp r = (.ok x, q) ∧ unpackRsp r' = (.ok y, q') ∧ gist x = gist y ∧ q.err = none ∧ q'.err = none ∧ q.evs = rest ∧ q'.evs = rest' := by
  obtain ⟨x, q, x1, x2, _, x4, _, x6, x7, x8, x9⟩ := C50_response_partial a ha hlen cseq hseq hc r rest he hr
  obtain ⟨y, q', y1, y2, _, y4, _, y6, y7, y8, y9⟩ := C50_response_partial b hb (by rw [hbody]; exact hlen) cseq hseq
    (by rw [hv _ (by simp)]; exact hc) r' rest' he' hr'
  have n : IsName b!"Public" ∧ IsName b!"Session" ∧ IsName b!"Transport" ∧ IsName b!"WWW-Authenticate" :=
    ⟨⟨by decide, by decide⟩, ⟨by decide, by decide⟩, ⟨by decide, by decide⟩, ⟨by decide, by decide⟩⟩
  refine ⟨x, y, q, q', x1, y1, ?_, x8, y8, x9, y9⟩
  unfold gist
  rw [x2, x4, x6, x7 _ n.1, x7 _ n.2.1, x7 _ n.2.2.1, x7 _ n.2.2.2, y2, y4, y6, y7 _ n.1, y7 _ n.2.1, y7 _ n.2.2.1, y7 _ n.2.2.2,
    hcode, hbody, hv b!"Public" (by simp), hv b!"Session" (by simp), hv b!"Transport" (by simp), hv b!"WWW-Authenticate" (by simp)]

/-- An answer, and the same from a server that adds its name and says it in other words. -/
def gistAnswer : Response := { proto := b!"RTSP/1.0", status := b!"200 OK", statusCode := 200, contentLength := 0, cseq := 1, header := [], body := none }
def gistAnswer' : Response := { gistAnswer with status := b!"200 Fine", header := [(b!"Server", b!"GStreamer")] }

theorem gistAnswer_eq : gist gistAnswer' = gist gistAnswer := by decide +kernel

example : Deaf demoWorld ∧ ∃ ops ops' : List Op, ops.map gistOp = ops'.map gistOp ∧ ops.length = 4 ∧ (∃ s, run demoWorld newSession ops = .ok s ∧ s.out.length = 5) ∧
    (∃ x y, Op.item (.response x) ∈ ops ∧ Op.item (.response y) ∈ ops' ∧ x.cseq = y.cseq ∧ x.header.get b!"Server" ≠ y.header.get b!"Server" ∧ x.status ≠ y.status) := by
  refine ⟨⟨fun _ => rfl, fun _ _ => rfl, fun _ _ _ => rfl⟩, [.open_ b!"rtsp://h/x" .tcp none, .item (.response gistAnswer), .describe, .play],
    [.open_ b!"rtsp://h/x" .tcp none, .item (.response gistAnswer'), .describe, .play], ?_, rfl, ⟨_, rfl, by decide⟩, gistAnswer, gistAnswer',
    List.mem_cons_of_mem _ (List.mem_cons_self ..), List.mem_cons_of_mem _ (List.mem_cons_self ..), rfl, by decide +kernel, by decide⟩
  simp only [List.map_cons, List.map_nil, gistOp, gistAnswer_eq]

/-- Responses with these values, one with more headers in another order. -/
example : ∃ a b : Sent, a.WF ∧ b.WF ∧ a.value b!"CSeq" = some (natDigits 2) ∧ b.code = a.code ∧ b.body = a.body ∧ a.headers.length = 2 ∧ b.headers.length = 4 ∧
    (∀ n ∈ [b!"CSeq", b!"Public", b!"Session", b!"Transport", b!"WWW-Authenticate"], b.value n = a.value n) := by
  refine ⟨⟨200, b!"OK", [⟨b!"CSeq", b!" ", b!"2"⟩, ⟨b!"Session", b!" ", b!"77"⟩], []⟩,
    ⟨200, b!"Very well", [⟨b!"session", b!"", b!"77"⟩, ⟨b!"Date", b!" ", b!"today"⟩, ⟨b!"Server", b!" ", b!"x"⟩, ⟨b!"CSEQ", b!" 	", b!"2"⟩], []⟩,
    ⟨by decide, ⟨by decide, by decide, by decide⟩, ?_, .inr ⟨rfl, by decide⟩⟩, ⟨by decide, ⟨by decide, by decide, by decide⟩, ?_, .inr ⟨rfl, by decide⟩⟩,
    by decide +kernel, rfl, rfl, rfl, rfl, by decide⟩
  · intro h hh
    simp only [List.mem_cons, List.not_mem_nil, or_false] at hh
    rcases hh with rfl | rfl <;> exact ⟨⟨by decide, by decide⟩, by decide, by decide, by decide, by decide⟩
  · intro h hh
    simp only [List.mem_cons, List.not_mem_nil, or_false] at hh
    rcases hh with rfl | rfl | rfl | rfl <;> exact ⟨⟨by decide, by decide⟩, by decide, by decide, by decide, by decide⟩

end Ouro
