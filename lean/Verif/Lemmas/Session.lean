import Verif.Spec.Session
import Verif.Props.Receive
/-! # Lemmas about sessions: every operation is a sequence of a few kinds of transitions -/
namespace Ouro
open Spec

/-- The verbs and headers of the requests a session makes. -/
inductive Shape : Request → Prop
  | options {r} : r.verb = b!"OPTIONS" → r.header = [] → Shape r
  | keepAlive {r v} : r.verb = b!"OPTIONS" → r.header = [(b!"Session", v)] → Shape r
  | describe {r} : r.verb = b!"DESCRIBE" → r.header = [(b!"Accept", b!"application/sdp")] → Shape r
  | setup {r v} : r.verb = b!"SETUP" → r.header = [(b!"Transport", v)] → Shape r
  | other {r} : r.verb = b!"PLAY" ∨ r.verb = b!"PAUSE" ∨ r.verb = b!"TEARDOWN" → r.header = [] → Shape r

/-- Put a request in the queue. -/
def insertReq (q : List (Int × Request)) (req : Request) : List (Int × Request) := q.filter (fun e => e.1 ≠ req.cseq) ++ [(req.cseq, req)]

/-- The session identifier after an answer. -/
def learned (session value : Bytes) : Bytes := if value ≠ [] then value.takeWhile (· ≠ 59) else session

/-- A transition. -/
inductive Prim (s s' : Sess) : Prop
  | quiet (hc : s'.cseq = s.cseq) (hq : s'.queue = s.queue) (hs : s'.session = s.session) (ho : s'.out = s.out)
  | data (ch : UInt8) (p : Bytes) (hc : s'.cseq = s.cseq) (hq : s'.queue = s.queue) (hs : s'.session = s.session) (ho : s'.out = .data ch p :: s.out)
  | ready (sinks : List (UInt8 × Int)) (hc : s'.cseq = s.cseq) (hq : s'.queue = s.queue) (hs : s'.session = s.session)
      (ho : s'.out = .started sinks :: .notified stageReady :: s.out)
  | unknown (rsp : Response) (h : s.find rsp.cseq = none) (hc : s'.cseq = s.cseq) (hq : s'.queue = s.queue) (hs : s'.session = s.session)
      (ho : s'.out = .got rsp :: s.out)
  | refused (rsp : Response) (req : Request) (h : s.find rsp.cseq = some req) (h401 : rsp.statusCode = 401) (hc : s'.cseq = s.cseq)
      (hq : s'.queue = s.queue.filter fun e => e.1 ≠ rsp.cseq) (hs : s'.session = s.session) (ho : s'.out = .got rsp :: s.out)
  | retried (rsp : Response) (req : Request) (a : Bytes) (res : IORes) (h : s.find rsp.cseq = some req) (h401 : rsp.statusCode = 401) (hc : s'.cseq = s.cseq)
      (hq : s'.queue = insertReq (s.queue.filter fun e => e.1 ≠ rsp.cseq) { req with auth := a, cseq := s.cseq, session := s.session })
      (hs : s'.session = s.session)
      (ho : s'.out = .sent true { req with auth := a, cseq := s.cseq, session := s.session } res :: .got rsp :: s.out)
  | answered (rsp : Response) (req : Request) (h : s.find rsp.cseq = some req) (h401 : rsp.statusCode ≠ 401) (hc : s'.cseq = s.cseq)
      (hq : s'.queue = s.queue.filter fun e => e.1 ≠ rsp.cseq) (hs : s'.session = learned s.session (rsp.header.get b!"Session"))
      (ho : s'.out = .got rsp :: s.out)
  | granted (rsp : Response) (req : Request) (st : Nat) (h : s.find rsp.cseq = some req) (h200 : rsp.statusCode = 200)
      (hst : stageAfter req.verb = some st) (hc : s'.cseq = s.cseq)
      (hq : s'.queue = s.queue.filter fun e => e.1 ≠ rsp.cseq) (hs : s'.session = learned s.session (rsp.header.get b!"Session"))
      (ho : s'.out = .notified st :: .got rsp :: s.out)
  | cmd (req : Request) (res : IORes) (hseq : req.cseq = s.cseq + 1) (hses : req.session = s.session) (hsh : Shape req) (hc : s'.cseq = s.cseq + 1)
      (hq : s'.queue = insertReq s.queue req) (hs : s'.session = s.session) (ho : s'.out = .sent false req res :: s.out)

/-- Any number of transitions. -/
inductive Prims : Sess → Sess → Prop
  | refl (s) : Prims s s
  | step {s t u} : Prim s t → Prims t u → Prims s u

theorem Prims.one {s t : Sess} (h : Prim s t) : Prims s t := .step h (.refl t)

theorem Prims.trans {s t u : Sess} (h1 : Prims s t) (h2 : Prims t u) : Prims s u := by
  induction h1 with
  | refl => exact h2
  | step h _ ih => exact .step h (ih h2)

/-- A quiet change at the start. -/
theorem Prims.quiet {s t u : Sess} (h : Prims t u) (hc : t.cseq = s.cseq) (hq : t.queue = s.queue) (hs : t.session = s.session)
    (ho : t.out = s.out) : Prims s u := .step (.quiet hc hq hs ho) h

/-- Transitions that take nothing from the connection. -/
inductive Send (s s' : Sess) : Prop
  | quiet (hc : s'.cseq = s.cseq) (hq : s'.queue = s.queue) (hs : s'.session = s.session) (ho : s'.out = s.out)
  | ready (sinks : List (UInt8 × Int)) (hc : s'.cseq = s.cseq) (hq : s'.queue = s.queue) (hs : s'.session = s.session)
      (ho : s'.out = .started sinks :: .notified stageReady :: s.out)
  | cmd (req : Request) (res : IORes) (hseq : req.cseq = s.cseq + 1) (hses : req.session = s.session) (hsh : Shape req) (hc : s'.cseq = s.cseq + 1)
      (hq : s'.queue = insertReq s.queue req) (hs : s'.session = s.session) (ho : s'.out = .sent false req res :: s.out)

theorem Send.prim {s s' : Sess} (h : Send s s') : Prim s s' := by
  cases h with
  | quiet hc hq hs ho => exact .quiet hc hq hs ho
  | ready k hc hq hs ho => exact .ready k hc hq hs ho
  | cmd req res h1 h2 h3 hc hq hs ho => exact .cmd req res h1 h2 h3 hc hq hs ho

/-- Any number of them. -/
inductive Sends : Sess → Sess → Prop
  | refl (s) : Sends s s
  | step {s t u} : Send s t → Sends t u → Sends s u

theorem Sends.one {s t : Sess} (h : Send s t) : Sends s t := .step h (.refl t)

theorem Sends.trans {s t u : Sess} (h1 : Sends s t) (h2 : Sends t u) : Sends s u := by
  induction h1 with
  | refl => exact h2
  | step h _ ih => exact .step h (ih h2)

theorem Sends.quiet {s t u : Sess} (h : Sends t u) (hc : t.cseq = s.cseq) (hq : t.queue = s.queue) (hs : t.session = s.session)
    (ho : t.out = s.out) : Sends s u := .step (.quiet hc hq hs ho) h

theorem Sends.prims {s t : Sess} (h : Sends s t) : Prims s t := by
  induction h with
  | refl => exact .refl _
  | step h _ ih => exact .step h.prim ih

theorem takeWhile_all {v : Bytes} (h : (59 : UInt8) ∉ v) (t : Bytes) : (v ++ 59 :: t).takeWhile (· ≠ 59) = v ∧ v.takeWhile (· ≠ 59) = v := by
  induction v with
  | nil => exact ⟨by simp, rfl⟩
  | cons a v ih =>
    have ha : a ≠ 59 := fun e => h (by simp [e])
    obtain ⟨h1, h2⟩ := ih (fun hm => h (by simp [hm]))
    constructor
    · rw [List.cons_append, List.takeWhile_cons, if_pos (by simpa using ha), h1]
    · rw [List.takeWhile_cons, if_pos (by simpa using ha), h2]

theorem session_head (v : Bytes) : ∃ f t, split 59 v = f :: t ∧ f = v.takeWhile (· ≠ 59) := by
  by_cases h : (59 : UInt8) ∈ v
  · obtain ⟨a, b, hab⟩ : ∃ a b, cut 59 v = some (a, b) := by
      cases hc : cut 59 v with
      | none => exact absurd h (cut_none.1 hc)
      | some ab => exact ⟨ab.1, ab.2, rfl⟩
    obtain ⟨h1, h2⟩ := cut_some hab
    refine ⟨a, split 59 b, ?_, ?_⟩
    · rw [h1]; exact split_append _ h2
    · rw [h1, (takeWhile_all h2 b).1]
  · exact ⟨v, [], split_none h, (takeWhile_all h []).2.symm⟩

theorem learnSession_eq (s : Sess) (v : Bytes) : learnSession s v = { s with session := learned s.session v } := by
  unfold learnSession learned
  by_cases hv : v ≠ []
  · rw [if_pos hv, if_pos hv]
    obtain ⟨f, t, h1, h2⟩ := session_head v
    rw [h1, ← h2]
  · rw [if_neg hv, if_neg hv]

/-- What writing does. -/
theorem writeReq_out {w : World} {s s' : Sess} {r : Bool} {req : Request} {e : Option SErr} (h : writeReq w s r req = .ok (s', e)) :
    s.proto ≠ .http ∧ s' = { s with out := .sent r req (w.write s.out (req.pack req.header)) :: s.out } ∧
    e = (match w.write s.out (req.pack req.header) with | .ok => none | .timeout => some (.write true) | .failed => some (.write false)) := by
  unfold writeReq at h
  by_cases hp : s.proto = .http
  · rw [if_pos hp] at h; cases h
  · rw [if_neg hp] at h
    dsimp only at h
    refine ⟨hp, ?_⟩
    generalize w.write s.out (req.pack req.header) = res at h ⊢
    cases res <;> (injection h with h; injection h with h1 h2; exact ⟨h1.symm, h2.symm⟩)

theorem callAuth_out {w : World} {s s' : Sess} {verb a : Bytes} (h : callAuth w s verb = .ok (a, s')) : ∃ x, s' = { s with auth := x } := by
  unfold callAuth at h
  cases hs : s.auth with
  | none => rw [hs] at h; injection h with h; injection h with _ h; exact ⟨none, by rw [← h, ← hs]⟩
  | some fd =>
    obtain ⟨f, d⟩ := fd
    rw [hs] at h
    dsimp only at h
    split at h
    · cases h
    · injection h with h; injection h with _ h; exact ⟨_, h.symm⟩

/-- What `command` does. -/
theorem command_out {w : World} {s s' : Sess} {verb uri : Bytes} {hs : Header} {e : Option SErr} (h : command w s verb uri hs = .ok (s', e)) :
    (s.opened = false ∧ s' = s ∧ e = some .noConnection) ∨
    (s.opened = true ∧ s.proto ≠ .http ∧ ∃ a x res, s' =
      { s with auth := x, cseq := s.cseq + 1,
               queue := insertReq s.queue ⟨verb, s.cseq + 1, uri, a, s.session, hs.foldl (fun h e => h.set e.1 e.2) []⟩,
               out := .sent false ⟨verb, s.cseq + 1, uri, a, s.session, hs.foldl (fun h e => h.set e.1 e.2) []⟩ res :: s.out } ∧
      e = (match res with | .ok => none | .timeout => some (.write true) | .failed => some (.write false))) := by
  unfold command at h
  by_cases ho : s.opened = false
  · rw [if_pos ho] at h
    injection h with h; injection h with h1 h2
    exact .inl ⟨ho, h1.symm, h2.symm⟩
  · rw [if_neg ho] at h
    right
    cases hc : callAuth w s verb with
    | error p => rw [hc] at h; cases h
    | ok as =>
      obtain ⟨a, t⟩ := as
      rw [hc] at h
      obtain ⟨x, rfl⟩ := callAuth_out hc
      dsimp only at h
      obtain ⟨hp, h1, h2⟩ := writeReq_out h
      refine ⟨by simpa using ho, hp, a, x, _, h1.trans ?_, h2⟩
      simp only [enqueue, insertReq]
      rfl

theorem command_sends {w : World} {s s' : Sess} {verb uri : Bytes} {hs : Header} {e : Option SErr}
    (hshape : ∀ c a, Shape ⟨verb, c, uri, a, s.session, hs.foldl (fun h e => h.set e.1 e.2) []⟩)
    (h : command w s verb uri hs = .ok (s', e)) : Sends s s' := by
  rcases command_out h with ⟨_, rfl, _⟩ | ⟨_, _, a, x, res, rfl, _⟩
  · exact .refl s'
  · exact .one (.cmd _ res rfl rfl (hshape _ _) rfl rfl rfl rfl)

theorem deref_open {s : Sess} {k : Go (Sess × Option SErr)} (h : s.opened = true) : s.deref k = k := by
  unfold Sess.deref; rw [if_neg (by rw [h]; decide)]

theorem deref_ok {s : Sess} {k : Go (Sess × Option SErr)} {r : Sess × Option SErr} (h : s.deref k = .ok r) : k = .ok r := by
  unfold Sess.deref at h
  split at h
  · cases h
  · exact h

theorem deref_opened {s : Sess} {k : Go (Sess × Option SErr)} {r : Sess × Option SErr} (h : s.deref k = .ok r) : s.opened = true := by
  unfold Sess.deref at h
  split at h
  · cases h
  · next ho => simpa using ho

theorem options_sends {w : World} {s s' : Sess} {e : Option SErr} (h : s.options w = .ok (s', e)) : Sends s s' :=
  command_sends (fun _ _ => .options rfl rfl) (deref_ok h)

theorem describe_sends {w : World} {s s' : Sess} {e : Option SErr} (h : s.describe w = .ok (s', e)) : Sends s s' :=
  command_sends (fun _ _ => .describe rfl rfl) (deref_ok h)

theorem setupLoop_sends {w : World} (fs : List Feed) : ∀ {done : List Feed} {s s' : Sess} {e : Option SErr}, setupLoop w done fs s = .ok (s', e) → Sends s s' := by
  induction fs with
  | nil => intro done s s' e h; injection h with h; injection h with h _; subst h; exact .refl _
  | cons f fs ih =>
    intro done s s' e h
    unfold setupLoop at h
    cases hc : command w s verbSetup (setupURI s.baseURI f.media.control) [(b!"Transport", f.transportHeader)] with
    | error p => rw [hc] at h; cases h
    | ok r =>
      obtain ⟨t, x⟩ := r
      have hp : Sends s t := command_sends (fun _ _ => .setup rfl rfl) hc
      rw [hc] at h
      cases x with
      | some x => injection h with h; injection h with h _; subst h; exact hp
      | none => exact hp.trans (Sends.quiet (ih h) rfl rfl rfl rfl)

theorem setup_sends {w : World} {s s' : Sess} {e : Option SErr} (h : s.setup w = .ok (s', e)) : Sends s s' := setupLoop_sends _ h

theorem keepAlive_sends {w : World} {s s' : Sess} {due : Bool} {e : Option SErr} (h : s.keepAlive w due = .ok (s', e)) : Sends s s' := by
  have h := deref_ok h
  split at h
  · exact command_sends (fun _ _ => .keepAlive rfl rfl) h
  · injection h with h; injection h with h _; subst h; exact .refl _

/-- The part of the state transitions speak of is the same. -/
def SameCore (s t : Sess) : Prop := t.cseq = s.cseq ∧ t.queue = s.queue ∧ t.session = s.session ∧ t.out = s.out

theorem SameCore.refl (s : Sess) : SameCore s s := ⟨rfl, rfl, rfl, rfl⟩

theorem SameCore.trans {s t u : Sess} (h1 : SameCore s t) (h2 : SameCore t u) : SameCore s u :=
  ⟨h2.1.trans h1.1, h2.2.1.trans h1.2.1, h2.2.2.1.trans h1.2.2.1, h2.2.2.2.trans h1.2.2.2⟩

theorem addSink_core (w : World) (s : Sess) (ch : UInt8) (port : Int) : SameCore s (addSink w s ch port).1 := by
  unfold addSink; split <;> exact ⟨rfl, rfl, rfl, rfl⟩

theorem setupAnswer_core {w : World} {rsp : Response} (fs : List Feed) : ∀ {done : List Feed} {s s' : Sess} {e : Option SErr},
    setupAnswer w rsp done fs s = .ok (s', e) → SameCore s s' := by
  induction fs with
  | nil => intro done s s' e h; injection h with h; injection h with h _; subst h; exact .refl _
  | cons f fs ih =>
    intro done s s' e h
    unfold setupAnswer at h
    by_cases hc : f.cseq = rsp.cseq
    · rw [if_pos hc] at h
      cases ht : f.transportSetup w.inf (rsp.header.get b!"Transport") with
      | error p => rw [ht] at h; cases h
      | ok r =>
        obtain ⟨f', x⟩ := r
        rw [ht] at h
        dsimp only at h
        cases x with
        | some x => injection h with h; injection h with h _; subst h; exact ⟨rfl, rfl, rfl, rfl⟩
        | none =>
          dsimp only at h
          split at h
          · exact SameCore.trans (t := { s with feedidx := s.feedidx + 1, feeds := done ++ f' :: fs }) ⟨rfl, rfl, rfl, rfl⟩ (ih h)
          · split at h
            · next s1 e1 h1 =>
              injection h with h; injection h with h _; subst h
              have := addSink_core w { s with feedidx := s.feedidx + 1, feeds := done ++ f' :: fs } (UInt8.ofNat (s.feedidx + 1) * 2) f'.transp.port.one
              rw [h1] at this
              exact SameCore.trans ⟨rfl, rfl, rfl, rfl⟩ this
            · next s1 h1 =>
              have a1 := addSink_core w { s with feedidx := s.feedidx + 1, feeds := done ++ f' :: fs } (UInt8.ofNat (s.feedidx + 1) * 2) f'.transp.port.one
              rw [h1] at a1
              have a2 := addSink_core w s1 (UInt8.ofNat (s.feedidx + 1) * 2 + 1) f'.transp.port.two
              split at h
              · next s2 e2 h2 =>
                injection h with h; injection h with h _; subst h
                rw [h2] at a2
                exact SameCore.trans (SameCore.trans ⟨rfl, rfl, rfl, rfl⟩ a1) a2
              · next s2 h2 =>
                rw [h2] at a2
                exact (SameCore.trans (SameCore.trans ⟨rfl, rfl, rfl, rfl⟩ a1) a2).trans (ih h)
    · rw [if_neg hc] at h
      exact ih h

theorem checkReady_sends (s : Sess) : Sends s (checkReady s) := by
  unfold checkReady
  split
  · exact .one (.ready _ rfl rfl rfl rfl)
  · exact .refl s

theorem handleSetup_sends {w : World} {s s' : Sess} {rsp : Response} {e : Option SErr} (h : handleSetup w s rsp = .ok (s', e)) : Sends s s' := by
  unfold handleSetup at h
  split at h
  · split at h
    · cases h
    · next t x ht =>
      injection h with h; injection h with h _; subst h
      obtain ⟨h1, h2, h3, h4⟩ := setupAnswer_core _ ht
      exact .one (.quiet h1 h2 h3 h4)
    · next t ht =>
      injection h with h; injection h with h _; subst h
      obtain ⟨h1, h2, h3, h4⟩ := setupAnswer_core _ ht
      exact .step (.quiet h1 h2 h3 h4) (checkReady_sends t)
  · split at h
    · injection h with h; injection h with h _; subst h
      exact Sends.quiet (checkReady_sends { s with feedidx := s.feedidx + 1 }) rfl rfl rfl rfl
    · injection h with h; injection h with h _; subst h
      exact checkReady_sends s

theorem authorize_core {w : World} {s s' : Sess} {c : Bytes} {e : Option SErr} (h : authorize w s c = .ok (s', e)) : ∃ x, s' = { s with auth := x } := by
  unfold authorize at h
  split at h
  · injection h with h; injection h with h _; exact ⟨_, h.symm⟩
  · split at h
    · injection h with h; injection h with h _; exact ⟨_, h.symm⟩
    · split at h
      · cases h
      · injection h with h; injection h with h _; exact ⟨_, h.symm⟩

/-- What `retry` does. -/
theorem retry_out {w : World} {s s' : Sess} {req : Request} {c : Bytes} {e : Option SErr} (h : retry w s req c = .ok (s', e)) :
    (∃ x, s' = { s with auth := x } ∧ e.isSome) ∨
    (∃ a x res, s' = { s with auth := x, queue := insertReq s.queue { req with auth := a, cseq := s.cseq, session := s.session }, out := .sent true { req with auth := a, cseq := s.cseq, session := s.session } res :: s.out } ∧
      e = (match res with | .ok => none | .timeout => some (.write true) | .failed => some (.write false))) := by
  unfold retry at h
  split at h
  · cases h
  · next t x ht =>
    injection h with h; injection h with h h2; subst h h2
    obtain ⟨x, rfl⟩ := authorize_core ht
    exact .inl ⟨x, rfl, rfl⟩
  · next t ht =>
    obtain ⟨x, rfl⟩ := authorize_core ht
    split at h
    · cases h
    · next a t2 hc =>
      obtain ⟨y, rfl⟩ := callAuth_out hc
      dsimp only [enqueue] at h
      obtain ⟨_, h1, h2⟩ := writeReq_out h
      exact .inr ⟨a, y, _, h1, h2⟩

/-- Taking the answer to a pending request from the connection. -/
inductive Took (s : Sess) (rsp : Response) (req : Request) (t : Sess) : Prop
  | answered (hc : t.cseq = s.cseq) (hq : t.queue = s.queue.filter fun e => e.1 ≠ rsp.cseq)
      (hs : t.session = learned s.session (rsp.header.get b!"Session")) (ho : t.out = .got rsp :: s.out)
  | granted (st : Nat) (h200 : rsp.statusCode = 200) (hst : stageAfter req.verb = some st) (hc : t.cseq = s.cseq)
      (hq : t.queue = s.queue.filter fun e => e.1 ≠ rsp.cseq) (hs : t.session = learned s.session (rsp.header.get b!"Session"))
      (ho : t.out = .notified st :: .got rsp :: s.out)

/-- What the switch on the verb does after the answer `rsp` to `req` was taken from the queue. -/
theorem answer_took {w : World} {s s' : Sess} {req : Request} {rsp : Response} {e : Option SErr}
    (h : answer w { s with queue := s.queue.filter (fun e => e.1 ≠ rsp.cseq), session := learned s.session (rsp.header.get b!"Session"),
                           out := .got rsp :: s.out } req.verb rsp = .ok (s', e)) : ∃ t, Took s rsp req t ∧ Sends t s' := by
  have base : Took s rsp req { s with queue := s.queue.filter (fun e => e.1 ≠ rsp.cseq), session := learned s.session (rsp.header.get b!"Session"), out := .got rsp :: s.out } :=
    .answered rfl rfl rfl rfl
  unfold answer at h
  split at h
  · split at h
    · exact ⟨_, base, Sends.quiet (describe_sends h) rfl rfl rfl rfl⟩
    · injection h with h; injection h with h _; subst h; exact ⟨_, base, .refl _⟩
  · split at h
    · split at h
      · split at h
        · cases h
        · exact ⟨_, base, Sends.quiet (setup_sends h) rfl rfl rfl rfl⟩
      · injection h with h; injection h with h _; subst h; exact ⟨_, base, .refl _⟩
    · split at h
      · next hv =>
        injection h with h; injection h with h _; subst h
        split
        · next h2 => refine ⟨_, ?_, .refl _⟩; exact .granted stagePause h2 (by rw [hv]; rfl) rfl rfl rfl rfl
        · exact ⟨_, base, .refl _⟩
      · split at h
        · next hv =>
          injection h with h; injection h with h _; subst h
          split
          · next h2 => refine ⟨_, ?_, .refl _⟩; exact .granted stagePlay h2 (by rw [hv]; rfl) rfl rfl rfl rfl
          · exact ⟨_, base, .refl _⟩
        · split at h
          · next hv =>
            injection h with h; injection h with h _; subst h
            split
            · next h2 => refine ⟨_, ?_, .refl _⟩; exact .granted stageDone h2 (by rw [hv]; rfl) rfl rfl rfl rfl
            · exact ⟨_, base, .refl _⟩
          · split at h
            · exact ⟨_, base, handleSetup_sends h⟩
            · injection h with h; injection h with h _; subst h; exact ⟨_, base, .refl _⟩

/-- What a response to a pending request does, unless it is a refusal. -/
theorem handle_took {w : World} {s s' : Sess} {rsp : Response} {req : Request} {e : Option SErr} (hf : s.find rsp.cseq = some req)
    (h401 : rsp.statusCode ≠ 401) (h : handleItem w s (.response rsp) = .ok (s', e)) : ∃ t, Took s rsp req t ∧ Sends t s' := by
  have h : handleRtsp w { s with out := .got rsp :: s.out } rsp = .ok (s', e) := h
  unfold handleRtsp at h
  have hfind : ({ s with out := .got rsp :: s.out } : Sess).find rsp.cseq = s.find rsp.cseq := rfl
  rw [hfind, hf] at h
  dsimp only at h
  rw [if_neg h401, learnSession_eq] at h
  exact answer_took h

theorem Took.prim {s t : Sess} {rsp : Response} {req : Request} (h : Took s rsp req t) (hf : s.find rsp.cseq = some req) (h401 : rsp.statusCode ≠ 401) :
    Prim s t := by
  cases h with
  | answered hc hq hs ho => exact .answered rsp req hf h401 hc hq hs ho
  | granted st h200 hst hc hq hs ho => exact .granted rsp req st hf h200 hst hc hq hs ho

theorem handleItem_prims {w : World} {s s' : Sess} {i : Item} {e : Option SErr} (h : handleItem w s i = .ok (s', e)) : Prims s s' := by
  cases i with
  | frame ch p => injection h with h; injection h with h _; subst h; exact .one (.data ch p rfl rfl rfl rfl)
  | response rsp =>
    cases hf : s.find rsp.cseq with
    | none =>
      have h : handleRtsp w { s with out := .got rsp :: s.out } rsp = .ok (s', e) := h
      unfold handleRtsp at h
      rw [show ({ s with out := .got rsp :: s.out } : Sess).find rsp.cseq = none from hf] at h
      injection h with h; injection h with h _; subst h
      exact .one (.unknown rsp hf rfl rfl rfl rfl)
    | some req =>
      by_cases h401 : rsp.statusCode = 401
      · have h : handleRtsp w { s with out := .got rsp :: s.out } rsp = .ok (s', e) := h
        unfold handleRtsp at h
        rw [show ({ s with out := .got rsp :: s.out } : Sess).find rsp.cseq = some req from hf] at h
        dsimp only at h
        rw [if_pos h401] at h
        rcases retry_out h with ⟨x, rfl, _⟩ | ⟨a, x, res, rfl, _⟩
        · exact .one (.refused rsp req hf h401 rfl rfl rfl rfl)
        · exact .one (.retried rsp req a res hf h401 rfl rfl rfl rfl)
      · obtain ⟨t, h1, h2⟩ := handle_took hf h401 h
        exact .step (h1.prim hf h401) h2.prims

/-- Every operation is a sequence of transitions. -/
theorem step_prims {w : World} {s s' : Sess} {op : Op} {e : Option SErr} (h : step w s op = .ok (s', e)) : Prims s s' := by
  cases op with
  | dial uri proto user => injection h with h; injection h with h _; subst h; exact Prims.quiet (.refl _) rfl rfl rfl rfl
  | open_ uri proto user => exact Prims.quiet ((options_sends h).prims) rfl rfl rfl rfl
  | options => exact (options_sends h).prims
  | describe => exact (describe_sends h).prims
  | setup => exact (setup_sends h).prims
  | play => exact (command_sends (fun _ _ => .other (.inl rfl) rfl) (deref_ok h)).prims
  | pause => exact (command_sends (fun _ _ => .other (.inr (.inl rfl)) rfl) (deref_ok h)).prims
  | teardown => exact (command_sends (fun _ _ => .other (.inr (.inr rfl)) rfl) (deref_ok h)).prims
  | keepAlive due => exact (keepAlive_sends h).prims
  | item i => exact handleItem_prims h

theorem run_prims {w : World} (ops : List Op) : ∀ {s s' : Sess}, run w s ops = .ok s' → Prims s s' := by
  induction ops with
  | nil => intro s s' h; injection h with h; subst h; exact .refl _
  | cons op ops ih =>
    intro s s' h
    unfold run at h
    split at h
    · cases h
    · next t e ht => exact (step_prims ht).trans (ih h)

theorem reachable_prims {w : World} {s : Sess} (h : Reachable w s) : Prims newSession s := by
  obtain ⟨ops, h⟩ := h; exact run_prims ops h

/-- Invariants of transitions hold in reachable states. -/
theorem Prims.induct {P : Sess → Prop} {s t : Sess} (h : Prims s t) (h0 : P s) (hs : ∀ s t, Prim s t → P s → P t) : P t := by
  induction h with
  | refl => exact h0
  | step hp _ ih => exact ih (hs _ _ hp h0)

/-! ## The queue -/

theorem find_filter (q : List (Int × Request)) (c k : Int) :
    ((q.filter fun e => e.1 ≠ c).find? fun e => e.1 = k).map (·.2) = if k = c then none else (q.find? fun e => e.1 = k).map (·.2) := by
  by_cases hk : k = c
  · rw [if_pos hk]
    have : (q.filter fun e => e.1 ≠ c).find? (fun e => e.1 = k) = none := by
      rw [List.find?_eq_none]
      intro e he
      rw [List.mem_filter] at he
      subst hk
      simpa using he.2
    rw [this]; rfl
  · rw [if_neg hk, List.find?_filter]
    congr 1
    apply congrFun
    congr 1
    funext e
    by_cases he : e.1 = k <;> simp [he, hk]

theorem find_insert (q : List (Int × Request)) (req : Request) (k : Int) :
    ((insertReq q req).find? fun e => e.1 = k).map (·.2) = if req.cseq = k then some req else (q.find? fun e => e.1 = k).map (·.2) := by
  unfold insertReq
  rw [List.find?_append]
  have hf := find_filter q req.cseq k
  by_cases hk : req.cseq = k
  · rw [if_pos hk]
    rw [if_pos hk.symm] at hf
    cases hx : (q.filter fun e => e.1 ≠ req.cseq).find? (fun e => e.1 = k) with
    | some x => rw [hx] at hf; cases hf
    | none => simp [hk]
  · rw [if_neg hk]
    rw [if_neg (fun e => hk e.symm)] at hf
    rw [← hf]
    cases (q.filter fun e => e.1 ≠ req.cseq).find? (fun e => e.1 = k) with
    | some x => rfl
    | none => simp [hk]

theorem find_remove (s : Sess) (c k : Int) : (s.remove c).find k = if k = c then none else s.find k := find_filter s.queue c k

end Ouro
