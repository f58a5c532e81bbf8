import Verif.Props.Session
import Verif.Spec.Undisturbed
/-!
# C115: media packets do not disturb the dialogue
-/
namespace Ouro
open Spec

/-- The session as if there had been no media packets. -/
def quiet (s : Sess) : Sess := { s with out := dialogue s.out }

/-- The same of a result. -/
def quietR (r : Go (Sess × Option SErr)) : Go (Sess × Option SErr) :=
  match r with
  | .ok (s, e) => .ok (quiet s, e)
  | .error p => .error p

section
variable {w : World} (hb : Blind w)
include hb

theorem quiet_writeReq (s : Sess) (retry : Bool) (req : Request) : writeReq w (quiet s) retry req = quietR (writeReq w s retry req) := by
  unfold writeReq
  show (if s.proto = .http then _ else _) = _
  split
  · rfl
  · dsimp only
    rw [show (quiet s).out = dialogue s.out from rfl, hb.write]
    cases w.write s.out (req.pack req.header) <;> rfl

omit hb in
theorem quiet_callAuth (s : Sess) (verb : Bytes) :
    callAuth w (quiet s) verb = (match callAuth w s verb with | .ok (a, s) => .ok (a, quiet s) | .error p => .error p) := by
  unfold callAuth
  rw [show (quiet s).auth = s.auth from rfl]
  rcases s.auth with _ | ⟨f, d⟩
  · rfl
  · dsimp only
    rcases authCall w.md5 f d verb [] with _ | ⟨_, _⟩ <;> rfl

theorem quiet_command (s : Sess) (verb uri : Bytes) (headers : Header) : command w (quiet s) verb uri headers = quietR (command w s verb uri headers) := by
  unfold command
  rw [show (quiet s).opened = s.opened from rfl]
  split
  · rfl
  · rw [quiet_callAuth]
    rcases callAuth w s verb with _ | ⟨a, s1⟩
    · rfl
    · exact quiet_writeReq hb (enqueue { s1 with cseq := s1.cseq + 1 } { verb, uri, auth := a, header := headers.foldl (fun h e => h.set e.1 e.2) [] }).2 false _

omit hb in
theorem quiet_deref {s : Sess} {k k' : Go (Sess × Option SErr)} (h : k' = quietR k) : (quiet s).deref k' = quietR (s.deref k) := by
  unfold Sess.deref
  rw [show (quiet s).opened = s.opened from rfl]
  split
  · rfl
  · exact h

theorem quiet_setupLoop (fs : List Feed) : ∀ (done : List Feed) (s : Sess), setupLoop w done fs (quiet s) = quietR (setupLoop w done fs s) := by
  induction fs with
  | nil => intro done s; rfl
  | cons f fs ih =>
    intro done s
    rw [setupLoop, setupLoop, show (quiet s).baseURI = s.baseURI from rfl, quiet_command hb]
    rcases command w s verbSetup (setupURI s.baseURI f.media.control) [(b!"Transport", f.transportHeader)] with _ | ⟨s1, _ | e⟩
    · rfl
    · exact ih _ { s1 with feeds := done ++ { f with cseq := s1.cseq } :: fs }
    · rfl

theorem quiet_addSink (s : Sess) (ch : UInt8) (port : Int) : addSink w (quiet s) ch port = (quiet (addSink w s ch port).1, (addSink w s ch port).2) := by
  unfold addSink
  rw [show (quiet s).out = dialogue s.out from rfl, show (quiet s).sinks = s.sinks from rfl, hb.listen]
  cases w.listen s.out s.sinks port <;> rfl

theorem quiet_setupAnswer (rsp : Response) (fs : List Feed) : ∀ (done : List Feed) (s : Sess),
    setupAnswer w rsp done fs (quiet s) = quietR (setupAnswer w rsp done fs s) := by
  induction fs with
  | nil => intro done s; rfl
  | cons f fs ih =>
    intro done s
    rw [setupAnswer, setupAnswer]
    split
    · rcases f.transportSetup w.inf (rsp.header.get b!"Transport") with _ | ⟨f', _ | e⟩
      · rfl
      · dsimp only
        split
        · exact ih _ { s with feedidx := s.feedidx + 1, feeds := done ++ f' :: fs }
        · obtain ⟨s1, e1⟩ : ∃ s1, s1 = { s with feedidx := s.feedidx + 1, feeds := done ++ f' :: fs } := ⟨_, rfl⟩
          have e2 : quiet s1 = { quiet s with feedidx := (quiet s).feedidx + 1, feeds := done ++ f' :: fs } := by rw [e1]; rfl
          rw [← e1, ← e2, quiet_addSink hb, show (quiet s).feedidx = s.feedidx from rfl]
          rcases addSink w s1 (UInt8.ofNat (s.feedidx + 1) * 2) f'.transp.port.one with ⟨s2, _ | e⟩
          · dsimp only
            rw [quiet_addSink hb]
            rcases addSink w s2 (UInt8.ofNat (s.feedidx + 1) * 2 + 1) f'.transp.port.two with ⟨s3, _ | e⟩
            · exact ih _ s3
            · rfl
          · rfl
      · rfl
    · exact ih _ s

omit hb in
theorem quiet_checkReady (s : Sess) : checkReady (quiet s) = quiet (checkReady s) := by
  unfold checkReady
  rw [show (quiet s).feedidx = s.feedidx from rfl, show (quiet s).feeds = s.feeds from rfl]
  split <;> rfl

theorem quiet_handleSetup (s : Sess) (rsp : Response) : handleSetup w (quiet s) rsp = quietR (handleSetup w s rsp) := by
  unfold handleSetup
  split
  · rw [show (quiet s).feeds = s.feeds from rfl, quiet_setupAnswer hb]
    rcases setupAnswer w rsp [] s.feeds s with _ | ⟨s1, _ | e⟩
    · rfl
    · show pure (checkReady (quiet s1), none) = _
      rw [quiet_checkReady]; rfl
    · rfl
  · split
    · show pure (checkReady (quiet { s with feedidx := s.feedidx + 1 }), none) = _
      rw [quiet_checkReady]; rfl
    · rw [quiet_checkReady]; rfl

theorem quiet_authorize (s : Sess) (challenge : Bytes) : authorize w (quiet s) challenge = quietR (authorize w s challenge) := by
  unfold authorize
  rw [show (quiet s).baseURI = s.baseURI from rfl, show (quiet s).user = s.user from rfl, show (quiet s).out = dialogue s.out from rfl, hb.rnd]
  rcases newDigest s.baseURI challenge with _ | d
  · rfl
  · rcases s.user with _ | ⟨u, p⟩
    · rfl
    · dsimp only
      rcases authenticate w.md5 (w.rnd s.out) d u p with _ | ⟨_, _⟩ <;> rfl

theorem quiet_retry (s : Sess) (req : Request) (challenge : Bytes) : retry w (quiet s) req challenge = quietR (retry w s req challenge) := by
  unfold retry
  rw [quiet_authorize hb]
  rcases authorize w s challenge with _ | ⟨s1, _ | e⟩
  · rfl
  · dsimp only [quietR]
    rw [quiet_callAuth]
    rcases callAuth w s1 req.verb with _ | ⟨a, s2⟩
    · rfl
    · exact quiet_writeReq hb (enqueue s2 { req with auth := a }).2 true _
  · rfl

omit hb in
theorem quiet_learn (s : Sess) (v : Bytes) : learnSession (quiet s) v = quiet (learnSession s v) := by
  unfold learnSession
  split
  · cases split 59 v <;> rfl
  · rfl

theorem quiet_answer (s : Sess) (verb : Bytes) (rsp : Response) : answer w (quiet s) verb rsp = quietR (answer w s verb rsp) := by
  unfold answer
  rw [show (quiet s).stage = s.stage from rfl, show (quiet s).proto = s.proto from rfl]
  split
  · split
    · exact quiet_deref (s := { s with verbs := s.verbs ++ split2 44 32 (rsp.header.get b!"Public") })
        (quiet_command hb { s with verbs := s.verbs ++ split2 44 32 (rsp.header.get b!"Public") } _ _ _)
    · rfl
  · split
    · cases rsp.body with
      | none => rfl
      | some body =>
        dsimp only
        rcases parseFeeds s.proto body with _ | feeds
        · rfl
        · exact quiet_setupLoop hb feeds [] { s with feeds := feeds }
    · split
      · split <;> rfl
      · split
        · split <;> rfl
        · split
          · split <;> rfl
          · split
            · exact quiet_handleSetup hb s rsp
            · rfl

theorem quiet_handleRtsp (s : Sess) (rsp : Response) : handleRtsp w (quiet s) rsp = quietR (handleRtsp w s rsp) := by
  unfold handleRtsp
  rw [show (quiet s).find rsp.cseq = s.find rsp.cseq from rfl, show (quiet s).remove rsp.cseq = quiet (s.remove rsp.cseq) from rfl]
  cases s.find rsp.cseq with
  | none => rfl
  | some req =>
    dsimp only
    split
    · exact quiet_retry hb _ _ _
    · rw [quiet_learn]; exact quiet_answer hb _ _ _

/-- C115: a call, or the arrival of a response, does the same and returns the same whether media packets came before or not. -/
theorem C115_step (s : Sess) (op : Op) (hop : notFrame op = true) : step w (quiet s) op = quietR (step w s op) := by
  cases op with
  | dial uri proto user => rfl
  | open_ uri proto user =>
    exact quiet_deref (s := { s with opened := true, baseURI := uri, proto := proto, user := user, sinks := [] })
      (quiet_command hb { s with opened := true, baseURI := uri, proto := proto, user := user, sinks := [] } _ _ _)
  | options => exact quiet_deref (quiet_command hb s _ _ _)
  | describe => exact quiet_deref (quiet_command hb s _ _ _)
  | setup => exact quiet_setupLoop hb s.feeds [] s
  | play => exact quiet_deref (quiet_command hb s _ _ _)
  | pause => exact quiet_deref (quiet_command hb s _ _ _)
  | teardown => exact quiet_deref (quiet_command hb s _ _ _)
  | keepAlive due =>
    refine quiet_deref ?_
    show (if s.proto ≠ .http ∧ s.proto ≠ .tcp ∧ s.stage > stageInit ∧ s.stage < stageDone ∧ due = true then _ else _) = _
    split
    · exact quiet_command hb s _ _ _
    · rfl
  | item i =>
    cases i with
    | frame ch p => cases hop
    | response rsp => exact quiet_handleRtsp hb { s with out := .got rsp :: s.out } rsp

/-- C115: a history with media packets goes as the one without them. -/
theorem C115_run (ops : List Op) : ∀ s, run w (quiet s) (ops.filter notFrame) =
    (match run w s ops with | .ok s' => .ok (quiet s') | .error p => .error p) := by
  induction ops with
  | nil => intro s; rfl
  | cons op ops ih =>
    intro s
    cases hop : notFrame op with
    | true =>
      rw [List.filter_cons_of_pos hop, run, run, C115_step hb s op hop]
      rcases step w s op with _ | ⟨s1, e⟩
      · rfl
      · exact ih s1
    | false =>
      rw [List.filter_cons_of_neg (by rw [hop]; decide)]
      cases op with
      | item i =>
        cases i with
        | frame ch p => exact ih { s with out := .data ch p :: s.out }
        | response rsp => cases hop
      | _ => cases hop

/-- C115: from a new session, whatever is called and received, and wherever media packets come in between: without them the session would be in
the same state, would have sent, received and notified the same in the same order, and any further call would return the same. -/
theorem C115_dialogue (ops : List Op) (s : Sess) (h : run w newSession ops = .ok s) :
    ∃ s', run w newSession (ops.filter notFrame) = .ok s' ∧ s'.out = dialogue s.out ∧ s = { s' with out := s.out } ∧
      ∀ op, notFrame op = true → (step w s' op).map (·.2) = (step w s op).map (·.2) := by
  have := C115_run hb ops newSession
  rw [h] at this
  refine ⟨quiet s, this, rfl, rfl, fun op hop => ?_⟩
  rw [C115_step hb s op hop]
  rcases step w s op with _ | ⟨_, _⟩ <;> rfl

/-- C115: nor do media packets make a session panic, or keep it from doing so. -/
theorem C115_panics (ops : List Op) (p : Panic) : run w newSession ops = .error p ↔ run w newSession (ops.filter notFrame) = .error p := by
  have := C115_run hb ops newSession
  rw [show quiet newSession = newSession from rfl] at this
  rw [this]
  cases run w newSession ops with
  | error q => exact ⟨fun h => by injection h with h; rw [h], fun h => by injection h with h; rw [h]⟩
  | ok s => exact ⟨fun h => by (cases h), fun h => by (cases h)⟩

end

/-- Packets before, between and after the answers. -/
example : Blind demoWorld ∧ ∃ s ops, run demoWorld newSession ops = .ok s ∧ s.out.length = 7 ∧ (dialogue s.out).length = 4 :=
  ⟨⟨fun _ => rfl, fun _ _ => rfl, fun _ _ _ => rfl⟩, _,
    [.open_ b!"rtsp://h/x" .tcp none, .item (.frame 0 [1]), demoGot 1 200 [] none, .item (.frame 1 [2]), .play, .item (.frame 2 [])], rfl, by decide, by decide⟩

end Ouro
