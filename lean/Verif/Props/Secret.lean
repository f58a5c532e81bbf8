import Verif.Spec.Secret
import Verif.Props.Setup
/-! # C96: what the server learns about the credentials -/
namespace Ouro
open Spec

/-- The session with other credentials. -/
def Sess.withUser (u : Option (Bytes × Bytes)) (s : Sess) : Sess := { s with user := u }

/-- The same in a result. -/
def withUserR (u : Option (Bytes × Bytes)) : Go (Sess × Option SErr) → Go (Sess × Option SErr)
  | .error p => .error p
  | .ok (s, e) => .ok (s.withUser u, e)

variable {w : World} {u : Option (Bytes × Bytes)}

theorem writeReq_user (s : Sess) (r : Bool) (q : Request) : writeReq w (s.withUser u) r q = withUserR u (writeReq w s r q) := by
  unfold writeReq
  by_cases h : s.proto = .http
  · rw [if_pos h, if_pos (show (s.withUser u).proto = .http from h)]; rfl
  · rw [if_neg h, if_neg (show ¬ (s.withUser u).proto = .http from h)]
    rw [show (s.withUser u).out = s.out from rfl]
    generalize w.write s.out (q.pack q.header) = x
    cases x <;> rfl

theorem command_user (s : Sess) (verb uri : Bytes) (hs : Header) : command w (s.withUser u) verb uri hs = withUserR u (command w s verb uri hs) := by
  unfold command
  by_cases h : s.opened = false
  · rw [if_pos h, if_pos (show (s.withUser u).opened = false from h)]; rfl
  · rw [if_neg h, if_neg (show ¬ (s.withUser u).opened = false from h)]
    have hc : callAuth w (s.withUser u) verb = (match callAuth w s verb with | .error p => .error p | .ok (a, t) => .ok (a, t.withUser u)) := by
      unfold callAuth
      show (match s.auth with | none => _ | some (f, d) => _) = _
      cases ha : s.auth with
      | none => rfl
      | some fd =>
        obtain ⟨f, d⟩ := fd
        dsimp only
        cases authCall w.md5 f d verb [] with
        | error p => rfl
        | ok r => rfl
    rw [hc]
    cases callAuth w s verb with
    | error p => rfl
    | ok r =>
      obtain ⟨a, t⟩ := r
      generalize hq : (⟨verb, 0, uri, a, [], hs.foldl (fun h e => h.set e.1 e.2) []⟩ : Request) = q
      have := writeReq_user (w := w) (u := u) (enqueue { t with cseq := t.cseq + 1 } q).2 false (enqueue { t with cseq := t.cseq + 1 } q).1
      rw [← hq] at this
      exact this

theorem setupLoop_user : ∀ (fs done : List Feed) (s : Sess), setupLoop w done fs (s.withUser u) = withUserR u (setupLoop w done fs s)
  | [], done, s => rfl
  | f :: fs, done, s => by
    rw [setupLoop, setupLoop, show (s.withUser u).baseURI = s.baseURI from rfl, command_user]
    cases command w s verbSetup (setupURI s.baseURI f.media.control) [(b!"Transport", f.transportHeader)] with
    | error p => rfl
    | ok r =>
      obtain ⟨t, x⟩ := r
      cases x with
      | some x => rfl
      | none => exact setupLoop_user fs (done ++ [{ f with cseq := t.cseq }]) { t with feeds := done ++ { f with cseq := t.cseq } :: fs }

theorem addSink_user (s : Sess) (ch : UInt8) (port : Int) : addSink w (s.withUser u) ch port = ((addSink w s ch port).1.withUser u, (addSink w s ch port).2) := by
  unfold addSink
  show (match w.listen s.out s.sinks port with | .ok => _ | .timeout => _ | .failed => _) = _
  cases w.listen s.out s.sinks port <;> rfl

theorem setupAnswer_user (rsp : Response) : ∀ (fs done : List Feed) (s : Sess), setupAnswer w rsp done fs (s.withUser u) = withUserR u (setupAnswer w rsp done fs s)
  | [], done, s => rfl
  | f :: fs, done, s => by
    rw [setupAnswer, setupAnswer]
    split
    · cases f.transportSetup w.inf (rsp.header.get b!"Transport") with
      | error p => rfl
      | ok r =>
        obtain ⟨f', e⟩ := r
        cases e with
        | some e => rfl
        | none =>
          dsimp only
          split
          · exact setupAnswer_user rsp fs (done ++ [f']) { s with feedidx := s.feedidx + 1, feeds := done ++ f' :: fs }
          · rw [show ({ s.withUser u with feedidx := (s.withUser u).feedidx + 1, feeds := done ++ f' :: fs } : Sess) =
              ({ s with feedidx := s.feedidx + 1, feeds := done ++ f' :: fs } : Sess).withUser u from rfl]
            rw [show (s.withUser u).feedidx = s.feedidx from rfl, addSink_user]
            generalize addSink w { s with feedidx := s.feedidx + 1, feeds := done ++ f' :: fs } (UInt8.ofNat (s.feedidx + 1) * 2) f'.transp.port.one = r1
            obtain ⟨s1, e1⟩ := r1
            cases e1 with
            | some e1 => rfl
            | none =>
              dsimp only
              rw [addSink_user]
              generalize addSink w s1 (UInt8.ofNat (s.feedidx + 1) * 2 + 1) f'.transp.port.two = r2
              obtain ⟨s2, e2⟩ := r2
              cases e2 with
              | some e2 => rfl
              | none => exact setupAnswer_user rsp fs (done ++ [f']) s2
    · exact setupAnswer_user rsp fs (done ++ [f]) s

theorem checkReady_user (s : Sess) : checkReady (s.withUser u) = (checkReady s).withUser u := by
  unfold checkReady
  show (if s.feedidx ≥ s.feeds.length then _ else _) = _
  split <;> rfl

theorem handleSetup_user (s : Sess) (rsp : Response) : handleSetup w (s.withUser u) rsp = withUserR u (handleSetup w s rsp) := by
  unfold handleSetup
  rw [show (s.withUser u).feeds = s.feeds from rfl, setupAnswer_user]
  split
  · cases setupAnswer w rsp [] s.feeds s with
    | error p => rfl
    | ok r =>
      obtain ⟨t, x⟩ := r
      cases x with
      | some x => rfl
      | none =>
        show Except.ok (checkReady (t.withUser u), none) = _
        rw [checkReady_user]; rfl
  · split
    · have := checkReady_user (u := u) { s with feedidx := s.feedidx + 1 }
      show Except.ok (checkReady (Sess.withUser u { s with feedidx := s.feedidx + 1 }), none) = _
      rw [this]; rfl
    · show Except.ok (checkReady (s.withUser u), none) = _
      rw [checkReady_user]; rfl

theorem deref_user {s : Sess} {k k' : Go (Sess × Option SErr)} (h : k' = withUserR u k) : (s.withUser u).deref k' = withUserR u (s.deref k) := by
  unfold Sess.deref
  show (if s.opened = false then _ else _) = _
  split
  · rfl
  · exact h

theorem answer_user (s : Sess) (verb : Bytes) (rsp : Response) : answer w (s.withUser u) verb rsp = withUserR u (answer w s verb rsp) := by
  unfold answer
  split
  · show (if s.stage = stageInit then _ else _) = _
    split
    · exact deref_user (s := { s with verbs := s.verbs ++ split2 44 32 (rsp.header.get b!"Public") })
        (command_user { s with verbs := s.verbs ++ split2 44 32 (rsp.header.get b!"Public") } _ _ _)
    · rfl
  · split
    · cases rsp.body with
      | none => rfl
      | some body =>
        dsimp only
        rw [show (s.withUser u).proto = s.proto from rfl]
        cases parseFeeds s.proto body with
        | error p => rfl
        | ok feeds => exact setupLoop_user feeds [] { s with feeds := feeds }
    · split
      · split <;> rfl
      · split
        · split <;> rfl
        · split
          · split <;> rfl
          · split
            · exact handleSetup_user s rsp
            · rfl

theorem learnSession_user (s : Sess) (v : Bytes) : learnSession (s.withUser u) v = (learnSession s v).withUser u := by
  unfold learnSession
  split
  · cases split 59 v <;> rfl
  · rfl

/-- The answer to a challenge is the same with both credentials. -/
def SameAnswer (w : World) (uri challenge : Bytes) (u v : Option (Bytes × Bytes)) : Prop :=
  ∀ d, newDigest uri challenge = .ok d → ∃ un p vn q, u = some (un, p) ∧ v = some (vn, q) ∧ ∀ rnd, authenticate w.md5 rnd d un p = authenticate w.md5 rnd d vn q

theorem retry_user (s : Sess) (q : Request) (challenge : Bytes) (h : SameAnswer w s.baseURI challenge s.user u) :
    retry w (s.withUser u) q challenge = withUserR u (retry w s q challenge) := by
  have ha : authorize w (s.withUser u) challenge = withUserR u (authorize w s challenge) := by
    unfold authorize
    rw [show (s.withUser u).baseURI = s.baseURI from rfl, show (s.withUser u).user = u from rfl, show (s.withUser u).out = s.out from rfl]
    cases hd : newDigest s.baseURI challenge with
    | error e => rfl
    | ok d =>
      obtain ⟨un, p, vn, q, h1, h2, h3⟩ := h d hd
      rw [h1, h2]
      dsimp only
      rw [← h3]
      cases authenticate w.md5 (w.rnd s.out) d un p with
      | error p => rfl
      | ok r => rfl
  unfold retry
  rw [ha]
  cases authorize w s challenge with
  | error p => rfl
  | ok r =>
    obtain ⟨t, e⟩ := r
    cases e with
    | some e => rfl
    | none =>
      show (match callAuth w (t.withUser u) q.verb with | .error p => _ | .ok (a, s) => _) = _
      have hc : callAuth w (t.withUser u) q.verb = (match callAuth w t q.verb with | .error p => .error p | .ok (a, t) => .ok (a, t.withUser u)) := by
        unfold callAuth
        show (match t.auth with | none => _ | some (f, d) => _) = _
        cases ha : t.auth with
        | none => rfl
        | some fd =>
          obtain ⟨f, d⟩ := fd
          dsimp only
          cases authCall w.md5 f d q.verb [] with
          | error p => rfl
          | ok r => rfl
      rw [hc]
      show _ = withUserR u (match callAuth w t q.verb with | .error p => _ | .ok (a, s) => _)
      cases callAuth w t q.verb with
      | error p => rfl
      | ok r =>
        obtain ⟨a, t'⟩ := r
        exact writeReq_user (enqueue t' { q with auth := a }).2 true (enqueue t' { q with auth := a }).1

theorem step_user (s : Sess) (op : Op) (hop : ¬ Opens op)
    (h : ∀ rsp, op = .item (.response rsp) → rsp.statusCode = 401 → SameAnswer w s.baseURI (rsp.header.get b!"WWW-Authenticate") s.user u) :
    step w (s.withUser u) op = withUserR u (step w s op) := by
  cases op with
  | dial a b c => exact absurd trivial hop
  | open_ a b c => exact absurd trivial hop
  | options => exact deref_user (command_user s _ _ _)
  | describe => exact deref_user (command_user s _ _ _)
  | setup => exact setupLoop_user s.feeds [] s
  | play => exact deref_user (command_user s _ _ _)
  | pause => exact deref_user (command_user s _ _ _)
  | teardown => exact deref_user (command_user s _ _ _)
  | keepAlive due =>
    show Sess.keepAlive w (s.withUser u) due = withUserR u (Sess.keepAlive w s due)
    refine deref_user ?_
    show (if s.proto ≠ .http ∧ s.proto ≠ .tcp ∧ s.stage > stageInit ∧ s.stage < stageDone ∧ due = true then _ else _) = _
    split
    · exact command_user s _ _ _
    · rfl
  | item i =>
    cases i with
    | frame ch p => rfl
    | response rsp =>
      show handleRtsp w (Sess.withUser u { s with out := .got rsp :: s.out }) rsp = withUserR u (handleRtsp w { s with out := .got rsp :: s.out } rsp)
      unfold handleRtsp
      show (match s.find rsp.cseq with | none => _ | some req => _) = withUserR u (match s.find rsp.cseq with | none => _ | some req => _)
      cases s.find rsp.cseq with
      | none => rfl
      | some req =>
        dsimp only
        split
        · rename_i h401
          exact retry_user (({ s with out := .got rsp :: s.out } : Sess).remove rsp.cseq) req _ (h rsp rfl h401)
        · rw [show (Sess.withUser u { s with out := .got rsp :: s.out }).remove rsp.cseq = (({ s with out := .got rsp :: s.out } : Sess).remove rsp.cseq).withUser u from rfl,
            learnSession_user, answer_user]

theorem run_user (ops : List Op) : ∀ (s : Sess), (∀ op ∈ ops, ¬ Opens op) →
    (∀ c ∈ challenges ops, SameAnswer w s.baseURI c s.user u) →
    run w (s.withUser u) ops = (match run w s ops with | .error p => .error p | .ok t => .ok (t.withUser u)) := by
  induction ops with
  | nil => intro s _ _; rfl
  | cons op ops ih =>
    intro s hop hc
    have h1 : step w (s.withUser u) op = withUserR u (step w s op) := by
      refine step_user s op (hop op (by simp)) ?_
      intro rsp ho h401
      apply hc
      rw [ho, challenges, if_pos h401]
      simp
    rw [run, run, h1]
    cases hs : step w s op with
    | error p => rfl
    | ok r =>
      obtain ⟨t, e⟩ := r
      have hst := step_static (hop op (by simp)) hs
      refine ih t (fun o ho => hop o (by simp [ho])) ?_
      intro c hcm
      rw [hst.2.2.1, hst.2.2.2]
      apply hc
      cases op with
      | item i =>
        cases i with
        | response rsp => rw [challenges]; exact List.mem_append_right _ hcm
        | frame _ _ => exact hcm
      | _ => exact hcm

theorem observed_user (uri : Bytes) (proto : Proto) (v : Option (Bytes × Bytes)) (ops : List Op) (hop : ∀ op ∈ ops, ¬ Opens op)
    (hc : ∀ c ∈ challenges ops, SameAnswer w uri c v u) : observed w uri proto u ops = observed w uri proto v ops := by
  unfold observed
  rw [run, run]
  have h1 : step w newSession (.open_ uri proto u) = withUserR u (step w newSession (.open_ uri proto v)) :=
    command_user { newSession with opened := true, baseURI := uri, proto := proto, user := v } _ _ _
  rw [h1]
  cases hs : step w newSession (.open_ uri proto v) with
  | error p => rfl
  | ok r =>
    obtain ⟨t, e⟩ := r
    have hst : SameStatic { newSession with opened := true, baseURI := uri, proto := proto, user := v } t := command_static hs
    show (match run w (t.withUser u) ops with | .error p => _ | .ok s => _) = (match run w t ops with | .error p => _ | .ok s => _)
    rw [run_user ops t hop (by rw [hst.2.2.1, hst.2.2.2]; exact hc)]
    cases run w t ops with
    | error p => rfl
    | ok s => rfl

/-- C96: until the server has refused a request with a challenge, nothing that can be observed depends on the credentials. -/
theorem C96_before_challenge (w : World) (uri : Bytes) (proto : Proto) (u v : Option (Bytes × Bytes)) (ops : List Op)
    (hop : ∀ op ∈ ops, ¬ Opens op) (hc : challenges ops = []) : observed w uri proto u ops = observed w uri proto v ops :=
  observed_user uri proto v ops hop (by rw [hc]; simp)

/-- C96: as long as all challenges the server sends are Digest challenges, what can be observed depends on the password only through the hashes of user name,
realm and password for the realms of these challenges: two passwords for which they are the same cannot be told apart, whatever happens. (The hash function
is a parameter: nothing is assumed about it.) -/
theorem C96_digest_only (w : World) (uri : Bytes) (proto : Proto) (name p q : Bytes) (ops : List Op)
    (hop : ∀ op ∈ ops, ¬ Opens op)
    (hc : ∀ c ∈ challenges ops, ∀ d, newDigest uri c = .ok d → d.basic = false ∧
      w.md5 (name ++ b!":" ++ d.realm ++ b!":" ++ p) = w.md5 (name ++ b!":" ++ d.realm ++ b!":" ++ q)) :
    observed w uri proto (some (name, p)) ops = observed w uri proto (some (name, q)) ops := by
  refine observed_user uri proto _ ops hop ?_
  intro c hm d hd
  obtain ⟨h1, h2⟩ := hc c hm d hd
  refine ⟨name, q, name, p, rfl, rfl, ?_⟩
  intro rnd
  unfold authenticate
  rw [h1, colonnade_ok name [d.realm, q], colonnade_ok name [d.realm, p]]
  have h2 : md5hex w.md5 (colons name [d.realm, q]) = md5hex w.md5 (colons name [d.realm, p]) := by
    unfold md5hex
    rw [show colons name [d.realm, q] = name ++ b!":" ++ d.realm ++ b!":" ++ q by simp [colons], show colons name [d.realm, p] = name ++ b!":" ++ d.realm ++ b!":" ++ p by simp [colons], h2]
  rw [if_neg (by decide), if_neg (by decide), go_ok_bind, go_ok_bind, h2]

/-- A hash function that only looks at the last byte but one. -/
def demoHash (b : Bytes) : Bytes := (b.dropLast.getLast?).toList

/-- The hypotheses of `C96_digest_only` are met by a history with a challenge, two different passwords and a hash function that maps them to the same. -/
example : ∃ ops c d, challenges ops = [c] ∧ newDigest b!"rtsp://h/x" c = .ok d ∧ d.basic = false ∧
    demoHash (b!"u" ++ b!":" ++ d.realm ++ b!":" ++ b!"pqr") = demoHash (b!"u" ++ b!":" ++ d.realm ++ b!":" ++ b!"xqs") ∧
    ∃ s, run { demoWorld with md5 := demoHash } newSession (.open_ b!"rtsp://h/x" .tcp (some (b!"u", b!"pqr")) :: ops) = .ok s ∧ retries s.out = 1 :=
  ⟨[demoGot 1 401 [(b!"Www-Authenticate", b!"Digest realm=\"r\", nonce=\"n\"")] none], b!"Digest realm=\"r\", nonce=\"n\"",
    { uri := b!"rtsp://h/x", realm := b!"r", nonce := b!"n", algorithm := b!"md5" }, by decide, by decide, rfl, by decide, _, rfl, by decide⟩

end Ouro
