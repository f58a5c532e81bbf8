import Verif.Spec.Reopen
import Verif.Props.Authorized
import Verif.Props.Commands
import Verif.Props.Crash
import Verif.Lemmas.Process
/-! # C110: a session that is opened again -/
namespace Ouro
open Spec

/-- The text an authorization function starts with. -/
def AuthFunc.start : AuthFunc → Bytes
  | .basic a => a
  | .digest a => a

/-- There are credentials exactly if a challenge was answered, and they are not empty. -/
def AuthKept (s : Sess) : Prop := (s.auth = none ↔ challengeOf s.out = none) ∧ ∀ f d, s.auth = some (f, d) → f.start ≠ []

theorem authCall_start {md5 : Bytes → Bytes} {f : AuthFunc} {d d' : Digest} {verb body a : Bytes} (h : authCall md5 f d verb body = .ok (a, d'))
    (hf : f.start ≠ []) : a ≠ [] := by
  cases f with
  | basic x => injection h with h; injection h with h _; subst h; exact hf
  | digest x =>
    have h : (digestResponse md5 d verb body >>= fun r => pure (x ++ r.1, r.2)) = Except.ok (a, d') := h
    cases hr : digestResponse md5 d verb body with
    | error p => rw [hr] at h; cases h
    | ok r =>
      rw [hr] at h
      injection h with h; injection h with h _; subst h
      exact fun e => hf (List.append_eq_nil_iff.1 e).1

theorem callAuth_kept {w : World} {s t : Sess} {verb a : Bytes} (h : callAuth w s verb = .ok (a, t)) (hs : ∀ f d, s.auth = some (f, d) → f.start ≠ []) :
    (t.auth = none ↔ s.auth = none) ∧ (∀ f d, t.auth = some (f, d) → f.start ≠ []) ∧ (a = [] ↔ s.auth = none) := by
  unfold callAuth at h
  cases ha : s.auth with
  | none =>
    rw [ha] at h
    injection h with h; injection h with h1 h2
    subst h1 h2
    exact ⟨by rw [ha], hs, by simp⟩
  | some fd =>
    obtain ⟨f, d⟩ := fd
    rw [ha] at h
    dsimp only at h
    split at h
    · cases h
    · next a' d' hc =>
      injection h with h; injection h with h1 h2
      subst h1 h2
      refine ⟨by simp, fun f' d'' e => ?_, ?_⟩
      · injection e with e; injection e with e _; subst e; exact hs f d ha
      · have := authCall_start hc (hs f d ha)
        simp [this]

theorem authorize_kept {w : World} {s t : Sess} {c : Bytes} (h : authorize w s c = .ok (t, none)) : ∃ f d, t.auth = some (f, d) ∧ f.start ≠ [] := by
  unfold authorize at h
  split at h
  · injection h with h; injection h with _ h; cases h
  · next d _ =>
    split at h
    · injection h with h; injection h with _ h; cases h
    · next u p _ =>
      split at h
      · cases h
      · next f d' hf =>
        injection h with h; injection h with h _; subst h
        refine ⟨f, d', rfl, ?_⟩
        unfold authenticate at hf
        split at hf
        · cases hc : colonnade u [p] with
          | error e => rw [hc] at hf; cases hf
          | ok x =>
            rw [hc] at hf
            injection hf with hf; injection hf with hf _; subst hf
            simp [AuthFunc.start]
        · cases hc : colonnade u [d.realm, p] with
          | error e => rw [hc] at hf; cases hf
          | ok x =>
            rw [hc] at hf
            injection hf with hf; injection hf with hf _; subst hf
            simp [AuthFunc.start]

theorem atrans_kept {w : World} {s s' : Sess} (h : ATrans w s s') (hk : AuthKept s) : AuthKept s' := by
  cases h with
  | same hu ha ho => unfold AuthKept; rw [ha, ho]; exact hk
  | event o hn hu ha ho => unfold AuthKept; rw [ha, ho, challengeOf_event hn]; exact hk
  | call q res t hc huri hu ha ho =>
    obtain ⟨h1, h2, _⟩ := callAuth_kept hc hk.2
    unfold AuthKept
    rw [ha, ho, challengeOf_new]
    exact ⟨h1.trans hk.1, h2⟩
  | again rsp req q res s0 t t2 hp hv hq h0 h1 hc hu ha ho =>
    obtain ⟨f, d, e, hf⟩ := authorize_kept h1
    obtain ⟨g1, g2, _⟩ := callAuth_kept hc (fun f' d' e' => by rw [e] at e'; injection e' with e'; injection e' with e' _; subst e'; exact hf)
    unfold AuthKept
    rw [ha, ho]
    refine ⟨?_, g2⟩
    rw [g1, e, challengeOf]
    simp

theorem atranss_kept {w : World} {s s' : Sess} (h : ATranss w s s') (hk : AuthKept s) : AuthKept s' := by
  induction h with
  | refl => exact hk
  | step h _ ih => exact ih (atrans_kept h hk)

theorem step_kept {w : World} {s s' : Sess} {op : Op} {e : Option SErr} (hr : Reachable w s) (h : step w s op = .ok (s', e)) (hk : AuthKept s) : AuthKept s' := by
  by_cases hop : Opens op
  · rcases opens_cases hop with ⟨a, b, c, rfl⟩ | ⟨a, b, c, rfl⟩
    · injection h with h; injection h with h _; subst h; exact hk
    exact atranss_kept (command_atrans (s := { s with opened := true, baseURI := a, proto := b, user := c, sinks := [] }) (.inr rfl) h) hk
  · exact atranss_kept (step_atrans hr hop h) hk

theorem kept_reachable {w : World} {s : Sess} (h : Reachable w s) : AuthKept s := by
  obtain ⟨ops, h⟩ := h
  suffices key : ∀ (ops : List Op) (s s' : Sess), Reachable w s → AuthKept s → run w s ops = .ok s' → AuthKept s' from
    key ops newSession s ⟨[], rfl⟩ ⟨by simp [newSession, challengeOf], fun f d e => by cases e⟩ h
  intro ops
  induction ops with
  | nil => intro s s' _ hk h; injection h with h; subst h; exact hk
  | cons op ops ih =>
    intro s s' hr hk h
    unfold run at h
    cases hs : step w s op with
    | error p => rw [hs] at h; cases h
    | ok r =>
      obtain ⟨t, e⟩ := r
      rw [hs] at h
      exact ih t s' (reachable_step hr hs) (step_kept hr hs hk) h

/-- What `Open` does, in terms of `callAuth`. -/
theorem open_call {w : World} (s : Sess) (uri : Bytes) (proto : Proto) (user : Option (Bytes × Bytes)) (hp : proto ≠ .http) :
    ∃ a x res s' e, callAuth w s verbOptions = .ok (a, { s with auth := x }) ∧ step w s (.open_ uri proto user) = .ok (s', e) ∧
      s' = { s with opened := true, baseURI := uri, proto := proto, user := user, sinks := [], auth := x, cseq := s.cseq + 1,
                    queue := insertReq s.queue ⟨verbOptions, s.cseq + 1, uri, a, s.session, []⟩,
                    out := .sent false ⟨verbOptions, s.cseq + 1, uri, a, s.session, []⟩ res :: s.out } := by
  obtain ⟨a, x, hc⟩ := callAuth_total w s verbOptions
  have hc' : callAuth w { s with opened := true, baseURI := uri, proto := proto, user := user, sinks := [] } verbOptions =
      .ok (a, { s with opened := true, baseURI := uri, proto := proto, user := user, sinks := [], auth := x }) := by
    unfold callAuth at hc ⊢
    dsimp only
    cases ha : s.auth with
    | none =>
      rw [ha] at hc
      injection hc with hc; injection hc with h1 h2
      rw [← h1, show x = none from by have := congrArg Sess.auth h2; rw [ha] at this; exact this.symm]; rfl
    | some fd =>
      obtain ⟨f, d⟩ := fd
      rw [ha] at hc
      dsimp only at hc ⊢
      cases h1 : authCall w.md5 f d verbOptions [] with
      | error e => rw [h1] at hc; cases hc
      | ok r =>
        obtain ⟨a', d'⟩ := r
        rw [h1] at hc
        injection hc with hc; injection hc with h2 h3
        have h4 : some (f, d') = x := congrArg Sess.auth h3
        rw [← h2, ← h4]; rfl
  refine ⟨a, x, w.write s.out (Request.pack ⟨verbOptions, s.cseq + 1, uri, a, s.session, []⟩ []), _,
    (match w.write s.out (Request.pack ⟨verbOptions, s.cseq + 1, uri, a, s.session, []⟩ []) with
      | .ok => none | .timeout => some (.write true) | .failed => some (.write false)), hc, ?_, rfl⟩
  show command w { s with opened := true, baseURI := uri, proto := proto, user := user, sinks := [] } verbOptions uri [] = _
  unfold command
  rw [if_neg (by simp), hc']
  dsimp only [enqueue]
  unfold writeReq
  rw [if_neg hp]
  dsimp only [List.foldl]
  have : (((s.cseq + 1 : Nat) : Int)) = (s.cseq : Int) + 1 := by omega
  rw [this]
  cases h : w.write s.out (Request.pack ⟨verbOptions, s.cseq + 1, uri, a, s.session, []⟩ []) <;> rfl

/-- C110, the first request: whatever happened before, `Open` sends the first request of a new session exactly if the session has not answered a challenge
of an earlier server. -/
theorem C110_first_iff (w : World) (s : Sess) (hr : Reachable w s) (uri : Bytes) (proto : Proto) (user : Option (Bytes × Bytes)) (hp : proto ≠ .http) :
    ∃ s' e q res, step w s (.open_ uri proto user) = .ok (s', e) ∧ s'.out = .sent false q res :: s.out ∧ q.cseq = s.cseq + 1 ∧
      (q.pack q.header = firstRequest uri q.cseq ↔ challengeOf s.out = none) := by
  obtain ⟨a, x, res, s', e, hc, hs, rfl⟩ := open_call (w := w) s uri proto user hp
  refine ⟨_, e, _, res, hs, rfl, rfl, ?_⟩
  rw [← (kept_reachable hr).1, ← (callAuth_kept hc (kept_reachable hr).2).2.2]
  constructor
  · intro h
    by_cases ha : a = []
    · exact ha
    · exfalso
      have := congrArg List.length h
      simp [Request.pack, firstRequest, headerLine, crnl, colsp, ha, verbOptions] at this
  · rintro rfl
    simp [Request.pack, firstRequest, headerLine, crnl, colsp, verbOptions]

/-- C110, credentials: the password given for one server is sent to the next, which never asked for it. For every session that has answered a Basic challenge
of the server at `uri`, and whatever address it is then opened for. -/
theorem C110_password_refuted (w : World) (uri : Bytes) (proto : Proto) (u p : Bytes) (ops : List Op) (s : Sess) (hno : NoOpen ops)
    (h : run w newSession (.open_ uri proto (some (u, p)) :: ops) = .ok s) (rsp : Response) (older : List Out) (hc : challengeOf s.out = some (rsp, older))
    (ps : List Param) (hne : ps ≠ []) (hps : ∀ p ∈ ps, p.WF) (hl : ∀ p, ps.getLast? = some p → p.after = [])
    (hch : rsp.header.get b!"WWW-Authenticate" = b!"Basic " ++ paramsText ps) (uri2 : Bytes) (proto2 : Proto) (user2 : Option (Bytes × Bytes)) (hp2 : proto2 ≠ .http) :
    ∃ s' e q res, step w s (.open_ uri2 proto2 user2) = .ok (s', e) ∧ s'.out = .sent false q res :: s.out ∧ q.verb = b!"OPTIONS" ∧ q.uri = uri2 ∧
      q.auth = b!"Basic " ++ b64Encode (u ++ b!":" ++ p) := by
  obtain ⟨a, x, res, s', e, hca, hs, rfl⟩ := open_call (w := w) s uri2 proto2 user2 hp2
  refine ⟨_, e, _, res, hs, rfl, rfl, rfl, ?_⟩
  show a = _
  obtain ⟨hh, hcar⟩ := holds_call (q := ⟨verbOptions, 0, [], a, [], []⟩) (opened_ainv hno h).holds hca
  rw [hc] at hcar
  obtain ⟨d0, u', p', h1, h2, h3, _⟩ := hcar
  injection h2 with h2; injection h2 with h2 h2'
  subst h2 h2'
  obtain ⟨g1, g2⟩ := C41_parsed_partial uri [] [] true ps hne hps hl (by simp) (by simp)
  rw [hch] at h1
  simp only [if_true, List.append_nil, List.nil_append] at g1 g2
  by_cases halg : ((lastValue .algorithm ps).map toLower).getD b!"md5" ∈ [b!"md5", b!"md5-sess"] ∨ (lastValue .nonce ps).getD [] = []
  · obtain ⟨d, e1, e2, _⟩ := g2 halg
    rw [h1] at e1; injection e1 with e1
    subst e1
    exact h3 e2
  · have := g1 ⟨fun e => halg (.inl e), fun e => halg (.inr e)⟩
    rw [h1] at this; cases this

theorem describe_made (w : World) (v : Sess) (ho : v.opened = true) (hp : v.proto ≠ .http) :
    ∃ t e q res, Sess.describe w v = .ok (t, e) ∧ t.out = .sent false q res :: v.out ∧ q.verb = b!"DESCRIBE" ∧ q.uri = v.baseURI := by
  cases hd : Sess.describe w v with
  | error p =>
    exfalso
    unfold Sess.describe at hd
    rw [deref_open ho] at hd
    unfold command at hd
    rw [if_neg (by rw [ho]; decide)] at hd
    obtain ⟨a, x, ha⟩ := callAuth_total w v verbDescribe
    rw [ha] at hd
    dsimp only [enqueue] at hd
    unfold writeReq at hd
    rw [if_neg (show ¬ v.proto = .http from hp)] at hd
    dsimp only at hd
    split at hd <;> cases hd
  | ok r =>
    obtain ⟨t, e⟩ := r
    rcases command_out (deref_ok hd) with ⟨hf, _⟩ | ⟨_, _, a, x, res2, ht, _⟩
    · rw [ho] at hf; cases hf
    · exact ⟨t, e, _, res2, rfl, by rw [ht], rfl, rfl⟩

theorem answer_options (w : World) (v : Sess) (rsp : Response) :
    (v.stage = stageInit → answer w v verbOptions rsp = Sess.describe w { v with verbs := v.verbs ++ split2 44 32 (rsp.header.get b!"Public") }) ∧
    (¬ v.stage = stageInit → answer w v verbOptions rsp = .ok (v, none)) := by
  unfold answer
  rw [if_pos rfl]
  exact ⟨fun h => if_pos h, fun h => if_neg h⟩

/-- C110, what follows: the answer to the first request leads to the DESCRIBE for the new address exactly if the session has never reported a stage; else nothing
happens at all, and the feeds are never set up. -/
theorem C110_followed_iff (w : World) (s : Sess) (hr : Reachable w s) (uri : Bytes) (proto : Proto) (user : Option (Bytes × Bytes)) (s' : Sess) (e : Option SErr)
    (h : step w s (.open_ uri proto user) = .ok (s', e)) (q : Request) (res : IORes) (ho : s'.out = .sent false q res :: s.out) (rsp : Response)
    (hc : rsp.cseq = q.cseq) (h401 : rsp.statusCode ≠ 401) :
    ∃ t e2, step w s' (.item (.response rsp)) = .ok (t, e2) ∧
      (stageNow s.out = 0 → ∃ q2 res2, t.out = .sent false q2 res2 :: .got rsp :: s'.out ∧ q2.verb = b!"DESCRIBE" ∧ q2.uri = uri) ∧
      (stageNow s.out ≠ 0 → t.out = .got rsp :: s'.out ∧ e2 = none) := by
  have hproto : proto ≠ .http := by
    intro e
    subst e
    rcases command_out (show command w { s with opened := true, baseURI := uri, proto := .http, user := user, sinks := [] } verbOptions uri [] = .ok (s', e) from h) with ⟨h, _⟩ | ⟨_, h, _⟩
    · cases h
    · exact h rfl
  have hr' := reachable_step hr h
  have hfind : s'.find rsp.cseq = some q := by rw [(inv_reachable hr').find, ho, hc, pending, if_pos rfl]
  have hstage := stageOk_reachable hr
  obtain ⟨a, x, res', s'', e', hca, hs, he⟩ := open_call (w := w) s uri proto user hproto
  rw [h] at hs
  injection hs with hs; injection hs with hs _
  subst hs
  have hq : q.verb = verbOptions := by
    rw [he] at ho
    injection ho with ho _; injection ho with _ ho _; rw [← ho]
  have h1 : s'.stage = s.stage ∧ s'.baseURI = uri ∧ s'.opened = true ∧ s'.proto = proto := by rw [he]; exact ⟨rfl, rfl, rfl, rfl⟩
  show ∃ t e2, handleRtsp w { s' with out := .got rsp :: s'.out } rsp = .ok (t, e2) ∧ _
  unfold handleRtsp
  rw [show ({ s' with out := .got rsp :: s'.out } : Sess).find rsp.cseq = some q from hfind]
  dsimp only
  rw [if_neg h401, learnSession_eq, hq]
  generalize hv : ({ ({ s' with out := .got rsp :: s'.out } : Sess).remove rsp.cseq with
    session := learned (({ s' with out := .got rsp :: s'.out } : Sess).remove rsp.cseq).session (rsp.header.get b!"Session") } : Sess) = v
  have hv1 : v.stage = s'.stage ∧ v.opened = true ∧ v.proto = proto ∧ v.baseURI = uri ∧ v.out = .got rsp :: s'.out := by
    rw [← hv]; exact ⟨rfl, h1.2.2.1, h1.2.2.2, h1.2.1, rfl⟩
  by_cases h0 : stageNow s.out = 0
  · rw [(answer_options w v rsp).1 (hv1.1.trans (h1.1.trans (hstage.trans h0)))]
    obtain ⟨t, e2, q2, res2, hd, g1, g2, g3⟩ := describe_made w { v with verbs := v.verbs ++ split2 44 32 (rsp.header.get b!"Public") } hv1.2.1
      (by show v.proto ≠ .http; rw [hv1.2.2.1]; exact hproto)
    exact ⟨t, e2, hd, fun _ => ⟨q2, res2, by rw [g1, ← hv1.2.2.2.2], g2, g3.trans hv1.2.2.2.1⟩, fun h => absurd h0 h⟩
  · rw [(answer_options w v rsp).2 (fun h => h0 (hstage.symm.trans (h1.1.symm.trans (hv1.1.symm.trans h))))]
    exact ⟨_, none, rfl, fun h => absurd h h0, fun _ => ⟨hv1.2.2.2.2, rfl⟩⟩

/-- C110, the session identifier: the DESCRIBE for the new address carries the identifier an earlier server assigned, unless the new one has assigned its own. -/
theorem C110_session_refuted (w : World) (s : Sess) (hr : Reachable w s) (uri : Bytes) (proto : Proto) (user : Option (Bytes × Bytes)) (s' : Sess) (e : Option SErr)
    (h : step w s (.open_ uri proto user) = .ok (s', e)) (q : Request) (res : IORes) (ho : s'.out = .sent false q res :: s.out) (rsp : Response)
    (hc : rsp.cseq = q.cseq) (h401 : rsp.statusCode ≠ 401) (hnone : rsp.header.get b!"Session" = []) (hid : sessionId s.out ≠ []) (hst : stageNow s.out = 0) :
    ∃ t e2 q2 res2, step w s' (.item (.response rsp)) = .ok (t, e2) ∧ t.out = .sent false q2 res2 :: .got rsp :: s'.out ∧ q2.verb = b!"DESCRIBE" ∧ q2.uri = uri ∧
      (b!"\r\nSession: " ++ sessionId s.out ++ b!"\r\n") <:+: q2.pack q2.header := by
  obtain ⟨t, e2, h1, h2, _⟩ := C110_followed_iff w s hr uri proto user s' e h q res ho rsp hc h401
  obtain ⟨q2, res2, g1, g2, g3⟩ := h2 hst
  refine ⟨t, e2, q2, res2, h1, g1, g2, g3, ?_⟩
  have hp := (inv_reachable (reachable_step (reachable_step hr h) h1)).past
  rw [g1] at hp
  have hses : q2.session = sessionId (.got rsp :: s'.out) := (Past.at (a := []) hp : Fact (.sent false q2 res2) _).1
  rw [sessionId, if_neg (fun x => x.2.2 hnone), ho, show sessionId (.sent false q res :: s.out) = sessionId s.out from rfl] at hses
  have hshape : ∃ pre, q2.pack q2.header = pre ++ b!"\r\n" ++ headerLine b!"Session" q2.session ++ (if q2.auth ≠ [] then headerLine b!"Authorization" q2.auth else []) ++
      headerLine b!"User-Agent" b!"Ouro/1.0" ++ headerLine b!"Content-Length" b!"0" ++ crnl := by
    unfold Request.pack
    rw [if_pos ⟨by rw [hses]; exact hid, by rw [g2]; decide, by rw [g2]; decide⟩]
    rcases List.eq_nil_or_concat q2.header with hh | ⟨hs, l, hh⟩
    · rw [hh]
      exact ⟨q2.verb ++ b!" " ++ q2.uri ++ b!" RTSP/1.0\r\nCSeq: " ++ itoa q2.cseq, by simp [headerLine, crnl, colsp]⟩
    · rw [hh]
      exact ⟨q2.verb ++ b!" " ++ q2.uri ++ b!" RTSP/1.0\r\nCSeq: " ++ itoa q2.cseq ++ b!"\r\n" ++ hs.flatMap (fun e => headerLine e.1 e.2) ++ l.1 ++ b!": " ++ l.2,
        by simp [headerLine, crnl, colsp, List.flatMap_append]⟩
  obtain ⟨pre, hpre⟩ := hshape
  rw [hpre, hses]
  exact ⟨pre, (if q2.auth ≠ [] then headerLine b!"Authorization" q2.auth else []) ++ headerLine b!"User-Agent" b!"Ouro/1.0" ++ headerLine b!"Content-Length" b!"0" ++ crnl,
    by simp [headerLine, crnl, colsp]⟩

/-! ## Examples -/

/-- A session that answered the challenge of a first server. -/
def demoChallenged : List Op :=
  [demoOpen, demoGot 1 401 [(b!"Www-Authenticate", b!"Basic realm=\"x\"")] none]

/-- The request of the second `Open` carries the credentials for the first server, in base64 `u:p`. -/
example : (match run demoWorld newSession (demoChallenged ++ [.open_ b!"rtsp://elsewhere/" .tcp none]) with
    | .ok s => s.out.head?.bind (fun o => match o with | .sent false q _ => some (q.pack q.header) | _ => none)
    | .error _ => none) =
    some b!"OPTIONS rtsp://elsewhere/ RTSP/1.0\r\nCSeq: 2\r\nAuthorization: Basic dTpw\r\nUser-Agent: Ouro/1.0\r\nContent-Length: 0\r\n\r\n" := by
  decide +kernel

/-- Without a challenge it is the first request of a new session. -/
example : (match run demoWorld newSession [demoOpen, .open_ b!"rtsp://elsewhere/" .tcp none] with
    | .ok s => s.out.head?.bind (fun o => match o with | .sent false q _ => some (q.pack q.header) | _ => none)
    | .error _ => none) = some (firstRequest b!"rtsp://elsewhere/" 2) := by decide +kernel

/-- The identifier of the first server goes to the second. -/
example : (match run demoWorld newSession [demoOpen, demoGot 1 200 [(b!"Session", b!"77;timeout=60")] none, .open_ b!"rtsp://elsewhere/" .tcp none, demoGot 3 200 [] none] with
    | .ok s => s.out.head?.bind (fun o => match o with | .sent false q _ => some (q.pack q.header) | _ => none)
    | .error _ => none) =
    some b!"DESCRIBE rtsp://elsewhere/ RTSP/1.0\r\nCSeq: 4\r\nAccept: application/sdp\r\nSession: 77\r\nUser-Agent: Ouro/1.0\r\nContent-Length: 0\r\n\r\n" := by
  decide +kernel

/-- After a DONE the session can be opened again, but the answer of the server leads to nothing. -/
example : (match run demoWorld newSession [demoOpen, .teardown, demoGot 2 200 [] none, .open_ b!"rtsp://h/x" .tcp none, demoGot 3 200 [] none] with
    | .ok s => (stageNow s.out, s.out.head?.map (fun o => match o with | .got rsp => rsp.cseq | _ => 0))
    | .error _ => (0, none)) = (4, some 3) := by decide +kernel
