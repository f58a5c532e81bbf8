import Verif.Spec.Authorize
import Verif.Props.Session
import Verif.Lemmas.SetupAll
/-! # Lemmas about authorized requests -/
namespace Ouro
open Spec

/-- The parts of the state transitions of authorization speak of, other than `auth` and the trace. -/
def SameUser (s t : Sess) : Prop := t.baseURI = s.baseURI ∧ t.user = s.user

/-- A transition, seen from authorization. -/
inductive ATrans (w : World) (s s' : Sess) : Prop
  | same (hu : SameUser s s') (ha : s'.auth = s.auth) (ho : s'.out = s.out)
  | event (o : Out) (hn : ∀ r q res, o ≠ .sent r q res) (hu : SameUser s s') (ha : s'.auth = s.auth) (ho : s'.out = o :: s.out)
  | call (q : Request) (res : IORes) (t : Sess) (hc : callAuth w s q.verb = .ok (q.auth, t)) (huri : q.verb = b!"SETUP" ∨ q.uri = s.baseURI) (hu : SameUser s s')
      (ha : s'.auth = t.auth) (ho : s'.out = .sent false q res :: s.out)
  | again (rsp : Response) (req q : Request) (res : IORes) (s0 t t2 : Sess) (hp : pending rsp.cseq s.out = some req) (hv : q.verb = req.verb) (hq : q.uri = req.uri)
      (h0 : s0.baseURI = s.baseURI ∧ s0.user = s.user ∧ s0.out = .got rsp :: s.out)
      (h1 : authorize w s0 (rsp.header.get b!"WWW-Authenticate") = .ok (t, none)) (hc : callAuth w t q.verb = .ok (q.auth, t2)) (hu : SameUser s s')
      (ha : s'.auth = t2.auth) (ho : s'.out = .sent true q res :: .got rsp :: s.out)

/-- Any number of transitions. -/
inductive ATranss (w : World) : Sess → Sess → Prop
  | refl (s) : ATranss w s s
  | step {s t u} : ATrans w s t → ATranss w t u → ATranss w s u

theorem ATranss.one {w : World} {s t : Sess} (h : ATrans w s t) : ATranss w s t := .step h (.refl t)

theorem ATranss.trans {w : World} {s t u : Sess} (h1 : ATranss w s t) (h2 : ATranss w t u) : ATranss w s u := by
  induction h1 with
  | refl => exact h2
  | step h _ ih => exact .step h (ih h2)

theorem ATranss.same {w : World} {s t u : Sess} (h : ATranss w t u) (hb : t.baseURI = s.baseURI) (hu : t.user = s.user) (ha : t.auth = s.auth) (ho : t.out = s.out) :
    ATranss w s u := .step (.same ⟨hb, hu⟩ ha ho) h

theorem command_atrans {w : World} {s s' : Sess} {verb uri : Bytes} {hs : Header} {e : Option SErr} (huri : verb = b!"SETUP" ∨ uri = s.baseURI)
    (h : command w s verb uri hs = .ok (s', e)) : ATranss w s s' := by
  unfold command at h
  by_cases ho : s.opened = false
  · rw [if_pos ho] at h
    injection h with h; injection h with h1 h2
    subst h1; exact .refl _
  · rw [if_neg ho] at h
    cases hc : callAuth w s verb with
    | error p => rw [hc] at h; cases h
    | ok as =>
      obtain ⟨a, t⟩ := as
      rw [hc] at h
      obtain ⟨x, rfl⟩ := callAuth_out hc
      dsimp only [enqueue] at h
      obtain ⟨_, h1, _⟩ := writeReq_out h
      subst h1
      exact .one (.call ⟨verb, s.cseq + 1, uri, a, s.session, hs.foldl (fun h e => h.set e.1 e.2) []⟩ _ { s with auth := x } hc huri ⟨rfl, rfl⟩ rfl rfl)

theorem setupLoop_atrans {w : World} (fs : List Feed) : ∀ {done : List Feed} {s s' : Sess} {e : Option SErr}, setupLoop w done fs s = .ok (s', e) → ATranss w s s' := by
  induction fs with
  | nil => intro done s s' e h; injection h with h; injection h with h _; subst h; exact .refl _
  | cons f fs ih =>
    intro done s s' e h
    unfold setupLoop at h
    cases hc : command w s verbSetup (setupURI s.baseURI f.media.control) [(b!"Transport", f.transportHeader)] with
    | error p => rw [hc] at h; cases h
    | ok r =>
      obtain ⟨t, x⟩ := r
      have hp : ATranss w s t := command_atrans (.inl rfl) hc
      rw [hc] at h
      cases x with
      | some x => injection h with h; injection h with h _; subst h; exact hp
      | none => exact hp.trans (ATranss.same (ih h) rfl rfl rfl rfl)

theorem addSink_auth (w : World) (s : Sess) (ch : UInt8) (port : Int) : (addSink w s ch port).1.auth = s.auth := by
  unfold addSink; split <;> rfl

theorem setupAnswer_auth {w : World} {rsp : Response} (fs : List Feed) : ∀ {done : List Feed} {s s' : Sess} {e : Option SErr},
    setupAnswer w rsp done fs s = .ok (s', e) → s'.auth = s.auth := by
  induction fs with
  | nil => intro done s s' e h; injection h with h; injection h with h _; subst h; rfl
  | cons f fs ih =>
    intro done s s' e h
    unfold setupAnswer at h
    split at h
    · cases ht : f.transportSetup w.inf (rsp.header.get b!"Transport") with
      | error p => rw [ht] at h; cases h
      | ok r =>
        obtain ⟨f', x⟩ := r
        rw [ht] at h
        dsimp only at h
        cases x with
        | some x => injection h with h; injection h with h _; subst h; rfl
        | none =>
          dsimp only at h
          split at h
          · exact (ih h).trans rfl
          · have a1 := addSink_auth w { s with feedidx := s.feedidx + 1, feeds := done ++ f' :: fs } (UInt8.ofNat (s.feedidx + 1) * 2) f'.transp.port.one
            split at h
            · next s1 e1 h1 => injection h with h; injection h with h _; subst h; rw [h1] at a1; exact a1
            · next s1 h1 =>
              rw [h1] at a1
              have a2 := addSink_auth w s1 (UInt8.ofNat (s.feedidx + 1) * 2 + 1) f'.transp.port.two
              split at h
              · next s2 e2 h2 => injection h with h; injection h with h _; subst h; rw [h2] at a2; exact a2.trans a1
              · next s2 h2 => rw [h2] at a2; exact (ih h).trans (a2.trans a1)
    · exact ih h

theorem checkReady_atrans (w : World) (s : Sess) : ATranss w s (checkReady s) := by
  unfold checkReady
  split
  · exact .step (t := notify s stageReady) (.event (.notified stageReady) (by intro r q res h; cases h) ⟨rfl, rfl⟩ rfl rfl)
      (.one (.event (.started s.sinks) (by intro r q res h; cases h) ⟨rfl, rfl⟩ rfl rfl))
  · exact .refl s

theorem handleSetup_atrans {w : World} {s s' : Sess} {rsp : Response} {e : Option SErr} (h : handleSetup w s rsp = .ok (s', e)) : ATranss w s s' := by
  unfold handleSetup at h
  have base : ∀ {t x}, setupAnswer w rsp [] s.feeds s = .ok (t, x) → ATrans w s t := fun {t x} ht =>
    .same ⟨(setupAnswer_feeds _ ht rfl).1.2.2.2.1, (setupAnswer_feeds _ ht rfl).1.2.2.2.2⟩ (setupAnswer_auth _ ht) (setupAnswer_core _ ht).2.2.2
  split at h
  · split at h
    · cases h
    · next t x ht =>
      injection h with h; injection h with h _; subst h
      exact .one (base ht)
    · next t ht =>
      injection h with h; injection h with h _; subst h
      exact .step (base ht) (checkReady_atrans w t)
  · split at h
    · injection h with h; injection h with h _; subst h
      exact ATranss.same (checkReady_atrans w { s with feedidx := s.feedidx + 1 }) rfl rfl rfl rfl
    · injection h with h; injection h with h _; subst h
      exact checkReady_atrans w s

theorem notify_atrans (w : World) (s : Sess) (st : Nat) : ATranss w s (notify s st) :=
  .one (.event (.notified st) (by intro r q res h; cases h) ⟨rfl, rfl⟩ rfl rfl)

theorem answer_atrans {w : World} {s s' : Sess} {verb : Bytes} {rsp : Response} {e : Option SErr} (h : answer w s verb rsp = .ok (s', e)) : ATranss w s s' := by
  unfold answer at h
  split at h
  · split at h
    · exact ATranss.same (command_atrans (.inr rfl) (deref_ok h)) rfl rfl rfl rfl
    · injection h with h; injection h with h _; subst h; exact .refl _
  · split at h
    · split at h
      · split at h
        · cases h
        · exact ATranss.same (setupLoop_atrans _ h) rfl rfl rfl rfl
      · injection h with h; injection h with h _; subst h; exact .refl _
    · split at h
      · injection h with h; injection h with h _; subst h; split; exact notify_atrans w s _; exact .refl _
      · split at h
        · injection h with h; injection h with h _; subst h; split; exact notify_atrans w s _; exact .refl _
        · split at h
          · injection h with h; injection h with h _; subst h; split; exact notify_atrans w s _; exact .refl _
          · split at h
            · exact handleSetup_atrans h
            · injection h with h; injection h with h _; subst h; exact .refl _

theorem authorize_failed {w : World} {s s' : Sess} {c : Bytes} {x : SErr} (h : authorize w s c = .ok (s', some x)) : s' = s := by
  unfold authorize at h
  split at h
  · injection h with h; injection h with h _; exact h.symm
  · split at h
    · injection h with h; injection h with h _; exact h.symm
    · split at h
      · cases h
      · injection h with h; injection h with _ h; cases h

theorem handleRtsp_atrans {w : World} {s s' : Sess} {rsp : Response} {e : Option SErr} (hr : Reachable w s)
    (h : handleRtsp w { s with out := .got rsp :: s.out } rsp = .ok (s', e)) : ATranss w s s' := by
  have got : ATrans w s { s with out := .got rsp :: s.out } := .event (.got rsp) (by intro r q res h; cases h) ⟨rfl, rfl⟩ rfl rfl
  unfold handleRtsp at h
  cases hf : s.find rsp.cseq with
  | none =>
    rw [show ({ s with out := .got rsp :: s.out } : Sess).find rsp.cseq = none from hf] at h
    injection h with h; injection h with h _; subst h
    exact .one got
  | some req =>
    have hp : pending rsp.cseq s.out = some req := by rw [← (inv_reachable hr).find]; exact hf
    rw [show ({ s with out := .got rsp :: s.out } : Sess).find rsp.cseq = some req from hf] at h
    dsimp only at h
    by_cases h401 : rsp.statusCode = 401
    · rw [if_pos h401] at h
      unfold retry at h
      split at h
      · cases h
      · next t x ht =>
        injection h with h; injection h with h h2; subst h
        rw [authorize_failed ht]
        exact .step got (.one (.same ⟨rfl, rfl⟩ rfl rfl))
      · next t ht =>
        split at h
        · cases h
        · next a t2 hc =>
          obtain ⟨x, hx⟩ := authorize_core ht
          obtain ⟨y, hy⟩ := callAuth_out hc
          dsimp only [enqueue] at h
          obtain ⟨_, h1, _⟩ := writeReq_out h
          subst h1
          subst hy; subst hx
          exact .one (.again rsp req { req with auth := a, cseq := s.cseq, session := s.session } _ (({ s with out := .got rsp :: s.out } : Sess).remove rsp.cseq) _ _ hp rfl rfl ⟨rfl, rfl, rfl⟩ ht hc ⟨rfl, rfl⟩ rfl rfl)
    · rw [if_neg h401, learnSession_eq] at h
      exact .step got (ATranss.same (answer_atrans h) rfl rfl rfl rfl)

theorem step_atrans {w : World} {s s' : Sess} {op : Op} {e : Option SErr} (hr : Reachable w s) (hop : ¬ Opens op) (h : step w s op = .ok (s', e)) :
    ATranss w s s' := by
  cases op with
  | dial uri proto user => exact absurd trivial hop
  | open_ uri proto user => exact absurd trivial hop
  | options => exact command_atrans (.inr rfl) (deref_ok h)
  | describe => exact command_atrans (.inr rfl) (deref_ok h)
  | setup => exact setupLoop_atrans _ h
  | play => exact command_atrans (.inr rfl) (deref_ok h)
  | pause => exact command_atrans (.inr rfl) (deref_ok h)
  | teardown => exact command_atrans (.inr rfl) (deref_ok h)
  | keepAlive due =>
    have h := deref_ok h
    split at h
    · exact command_atrans (.inr rfl) h
    · injection h with h; injection h with h _; subst h; exact .refl _
  | item i =>
    cases i with
    | frame ch p =>
      injection h with h; injection h with h _; subst h
      exact .one (.event (.data ch p) (by intro r q res h; cases h) ⟨rfl, rfl⟩ rfl rfl)
    | response rsp => exact handleRtsp_atrans hr h

/-! ## The invariant -/

/-- The credentials the session holds are those for a challenge. -/
def Holds (w : World) (uri : Bytes) (user : Option (Bytes × Bytes)) (auth : Option (AuthFunc × Digest)) : Option (Response × List Out) → Prop
  | none => auth = none
  | some (rsp, older) => ∃ d0 u p, newDigest uri (rsp.header.get b!"WWW-Authenticate") = .ok d0 ∧ user = some (u, p) ∧
      (d0.basic = true → ∃ d, auth = some (.basic (b!"Basic " ++ b64Encode (u ++ b!":" ++ p)), d)) ∧
      (d0.basic = false → ∃ d ha1, auth = some (.digest (authPrefix d0 u), d) ∧ Ready w.md5 (w.rnd (.got rsp :: older)) d0 u p ha1 d ∧
        (d0.algorithm ≠ b!"md5-sess" → ha1 = md5hex w.md5 (colons u [d0.realm, p])))

/-- The Authorization value of a request is that for a challenge. -/
def Carries (w : World) (uri : Bytes) (user : Option (Bytes × Bytes)) (r : Bool) (q : Request) : Option (Response × List Out) → Prop
  | none => q.auth = []
  | some (rsp, older) => ∃ d0 u p, newDigest uri (rsp.header.get b!"WWW-Authenticate") = .ok d0 ∧ user = some (u, p) ∧
      (d0.basic = true → q.auth = b!"Basic " ++ b64Encode (u ++ b!":" ++ p)) ∧
      (d0.basic = false → (d0.algorithm ≠ b!"md5-sess" ∨ (r = true ∧ d0.qop ≠ [])) →
        q.auth = rfcAuthorization w.md5 (w.rnd (.got rsp :: older)) d0 u p q.verb [])

structure AInv (w : World) (uri : Bytes) (user : Option (Bytes × Bytes)) (s : Sess) : Prop where
  base : s.baseURI = uri
  who : s.user = user
  holds : Holds w uri user s.auth (challengeOf s.out)
  sent : ∀ a b r q res, s.out = a ++ .sent r q res :: b → Carries w uri user r q (challengeOf (.sent r q res :: b)) ∧ (q.verb = b!"SETUP" ∨ q.uri = uri)

theorem challengeOf_event {o : Out} (hn : ∀ r q res, o ≠ .sent r q res) (l : List Out) : challengeOf (o :: l) = challengeOf l := by
  cases o with
  | sent r q res => exact absurd rfl (hn r q res)
  | _ => rfl

theorem challengeOf_new (q : Request) (res : IORes) (l : List Out) : challengeOf (.sent false q res :: l) = challengeOf l := by
  cases l <;> rfl

theorem pending_sent {c : Int} {req : Request} : ∀ {l : List Out}, pending c l = some req → ∃ a b r res, l = a ++ .sent r req res :: b := by
  intro l
  induction l with
  | nil => intro h; cases h
  | cons o l ih =>
    intro h
    have old : pending c l = some req → ∃ a b r res, o :: l = a ++ .sent r req res :: b := fun h => by
      obtain ⟨a, b, r, res, e⟩ := ih h
      exact ⟨o :: a, b, r, res, by rw [e]; rfl⟩
    cases o with
    | sent r q res =>
      rw [pending] at h
      split at h
      · injection h with h; subst h; exact ⟨[], l, r, res, rfl⟩
      · exact old h
    | got rsp =>
      rw [pending] at h
      split at h
      · cases h
      · exact old h
    | notified st => exact old h
    | started k => exact old h
    | data ch p => exact old h

theorem rfc_of_call (md5 : Bytes → Bytes) (rnd user password : Bytes) (d0 d : Digest) (ha1 : Bytes) (hr : Ready md5 rnd d0 user password ha1 d) (verb : Bytes)
    (h1 : ha1 = md5hex md5 (colons user [d0.realm, password])) (hs : d0.algorithm = b!"md5-sess" → d0.qop ≠ []) :
    ∃ d', authCall md5 (.digest (authPrefix d0 user)) d verb [] = .ok (rfcAuthorization md5 rnd d0 user password verb [], d') := by
  obtain ⟨d', h3, _⟩ := authCall_digest md5 rnd user password d0 d _ hr verb []
  refine ⟨d', ?_⟩
  rw [h3]
  subst h1
  unfold rfcAuthorization requestDigest hashA1 sent
  by_cases hq : d0.qop = []
  · have hs' : ¬ d0.algorithm = b!"md5-sess" := fun he => hs he hq
    simp only [hq, if_true, ne_eq, not_true_eq_false, false_and, if_false, hs', decide_false, Bool.false_eq_true]
  · simp only [hq, if_false, ne_eq, not_false_eq_true, true_and, decide_eq_true_eq]

/-- Calling the function that is held. -/
theorem holds_call {w : World} {uri : Bytes} {user : Option (Bytes × Bytes)} {s t : Sess} {q : Request} {c : Option (Response × List Out)}
    (h : Holds w uri user s.auth c) (hc : callAuth w s q.verb = .ok (q.auth, t)) : Holds w uri user t.auth c ∧ Carries w uri user false q c := by
  unfold callAuth at hc
  cases c with
  | none =>
    have h : s.auth = none := h
    rw [h] at hc
    injection hc with hc; injection hc with h1 h2
    subst h2
    exact ⟨h, h1.symm⟩
  | some ro =>
    obtain ⟨rsp, older⟩ := ro
    obtain ⟨d0, u, p, h1, h2, h3, h4⟩ := h
    cases hb : d0.basic with
    | true =>
      obtain ⟨d, hd⟩ := h3 hb
      rw [hd] at hc
      injection hc with hc; injection hc with hc1 hc2
      subst hc2
      exact ⟨⟨d0, u, p, h1, h2, fun _ => ⟨d, rfl⟩, fun hf => by rw [hb] at hf; cases hf⟩, d0, u, p, h1, h2, fun _ => hc1.symm, fun hf => by rw [hb] at hf; cases hf⟩
    | false =>
      obtain ⟨d, ha1, hd, hr, hs⟩ := h4 hb
      rw [hd] at hc
      dsimp only at hc
      obtain ⟨d', g1, g2⟩ := authCall_digest w.md5 (w.rnd (.got rsp :: older)) u p d0 d ha1 hr q.verb []
      have g1' := g1
      rw [g1] at hc
      injection hc with hc; injection hc with hc1 hc2
      subst hc2
      refine ⟨⟨d0, u, p, h1, h2, fun hf => (by rw [hb] at hf; cases hf), fun _ => ⟨d', _, rfl, g2, fun hne => ?_⟩⟩, d0, u, p, h1, h2, fun hf => (by rw [hb] at hf; cases hf), fun _ hne => ?_⟩
      · rw [if_neg (by rintro ⟨_, e⟩; exact hne e)]; exact hs hne
      · rcases hne with hne | ⟨hf, _⟩
        · obtain ⟨d'', g3⟩ := rfc_of_call w.md5 _ u p d0 d ha1 hr q.verb (hs hne) (fun e => absurd e hne)
          rw [g1'] at g3
          injection g3 with g3; injection g3 with g3 _
          rw [← hc1, g3]
        · cases hf

/-- A new challenge. -/
theorem holds_again {w : World} {uri : Bytes} {user : Option (Bytes × Bytes)} {s t t2 : Sess} {rsp : Response} {older : List Out} {q : Request}
    (hu : s.baseURI = uri) (hus : s.user = user) (ho : s.out = .got rsp :: older) (h : authorize w s (rsp.header.get b!"WWW-Authenticate") = .ok (t, none))
    (hc : callAuth w t q.verb = .ok (q.auth, t2)) : Holds w uri user t2.auth (some (rsp, older)) ∧ Carries w uri user true q (some (rsp, older)) := by
  unfold authorize at h
  rw [hu, hus, ho] at h
  cases hd : newDigest uri (rsp.header.get b!"WWW-Authenticate") with
  | error e => rw [hd] at h; injection h with h; injection h with _ h; cases h
  | ok d0 =>
    rw [hd] at h
    cases user with
    | none => injection h with h; injection h with _ h; cases h
    | some up =>
      obtain ⟨u, p⟩ := up
      dsimp only at h
      cases hb : d0.basic with
      | true =>
        obtain ⟨f, d, x, g1, g2, g3, _⟩ := C45_basic w.md5 (w.rnd (.got rsp :: older)) uri _ u p d0 hd hb []
        have hfd : authenticate w.md5 (w.rnd (.got rsp :: older)) d0 u p = .ok (.basic (b!"Basic " ++ b64Encode (u ++ b!":" ++ p)), d0) := by
          have hcol : colons u [p] = u ++ b!":" ++ p := by simp [colons]
          unfold authenticate
          rw [if_pos hb, colonnade_ok, go_ok_bind, hcol, go_pure]
        rw [hfd] at h
        injection h with h; injection h with h _
        have ht : Holds w uri (some (u, p)) t.auth (some (rsp, older)) :=
          ⟨d0, u, p, hd, rfl, fun _ => ⟨d0, by rw [← h]⟩, fun hf => by rw [hb] at hf; cases hf⟩
        obtain ⟨i1, e0, u', p', i2, i3, i4, i5⟩ := holds_call ht hc
        refine ⟨i1, e0, u', p', i2, i3, i4, fun hf _ => ?_⟩
        rw [hd] at i2; injection i2 with i2; rw [← i2, hb] at hf; cases hf
      | false =>
        obtain ⟨d, g1, g2⟩ := authenticate_digest w.md5 (w.rnd (.got rsp :: older)) u p d0 hb (newDigest_init hd).2
        rw [g1] at h
        injection h with h; injection h with h _
        have ht : Holds w uri (some (u, p)) t.auth (some (rsp, older)) :=
          ⟨d0, u, p, hd, rfl, fun hf => by (rw [hb] at hf; cases hf), fun _ => ⟨d, _, by rw [← h], g2, fun _ => rfl⟩⟩
        refine ⟨(holds_call ht hc).1, d0, u, p, hd, rfl, fun hf => by (rw [hb] at hf; cases hf), fun _ hne => ?_⟩
        obtain ⟨d', g3⟩ := rfc_of_call w.md5 _ u p d0 d _ g2 q.verb rfl (fun e => by
          rcases hne with hne | ⟨_, hne⟩
          · exact absurd e hne
          · exact hne)
        unfold callAuth at hc
        rw [← h] at hc
        dsimp only at hc
        rw [g3] at hc
        injection hc with hc; injection hc with hc _
        exact hc.symm

theorem sent_cons {P : Bool → Request → IORes → List Out → Prop} {o : Out} {l : List Out} (hn : ∀ r q res, o = .sent r q res → P r q res l)
    (h : ∀ a b r q res, l = a ++ .sent r q res :: b → P r q res b) : ∀ a b r q res, o :: l = a ++ .sent r q res :: b → P r q res b := by
  intro a b r q res e
  cases a with
  | nil => injection e with e1 e2; subst e2; exact hn r q res e1
  | cons x a => injection e with _ e2; exact h a b r q res e2

theorem atrans_inv {w : World} {uri : Bytes} {user : Option (Bytes × Bytes)} {s s' : Sess} (h : ATrans w s s') (hi : AInv w uri user s) : AInv w uri user s' := by
  cases h with
  | same hu ha ho => exact ⟨hu.1.trans hi.base, hu.2.trans hi.who, by rw [ha, ho]; exact hi.holds, by rw [ho]; exact hi.sent⟩
  | event o hn hu ha ho =>
    refine ⟨hu.1.trans hi.base, hu.2.trans hi.who, by rw [ha, ho, challengeOf_event hn]; exact hi.holds, ?_⟩
    rw [ho]
    exact sent_cons (fun r q res e => absurd e (hn r q res)) hi.sent
  | call q res t hc huri hu ha ho =>
    obtain ⟨h1, h2⟩ := holds_call hi.holds hc
    refine ⟨hu.1.trans hi.base, hu.2.trans hi.who, by rw [ha, ho, challengeOf_new]; exact h1, ?_⟩
    rw [ho]
    refine sent_cons (fun r q' res' e => ?_) hi.sent
    injection e with e1 e2 e3
    subst e1 e2 e3
    rw [challengeOf_new]
    exact ⟨h2, by rw [← hi.base]; exact huri⟩
  | again rsp req q res s0 t t2 hp hv hq h0 h1 hc hu ha ho =>
    obtain ⟨g1, g2⟩ := holds_again (h0.1.trans hi.base) (h0.2.1.trans hi.who) h0.2.2 h1 hc
    refine ⟨hu.1.trans hi.base, hu.2.trans hi.who, by rw [ha, ho]; exact g1, ?_⟩
    rw [ho]
    refine sent_cons (fun r q' res' e => ?_) (sent_cons (fun r q' res' e => by (cases e)) hi.sent)
    injection e with e1 e2 e3
    subst e1 e2 e3
    refine ⟨g2, ?_⟩
    obtain ⟨a, b, r, res2, e⟩ := pending_sent hp
    rw [hv, hq]
    exact (hi.sent a b r req res2 e).2

theorem atranss_inv {w : World} {uri : Bytes} {user : Option (Bytes × Bytes)} {s s' : Sess} (h : ATranss w s s') (hi : AInv w uri user s) : AInv w uri user s' := by
  induction h with
  | refl => exact hi
  | step h _ ih => exact ih (atrans_inv h hi)

theorem run_append {w : World} (as bs : List Op) : ∀ {s t : Sess}, run w s as = .ok t → run w s (as ++ bs) = run w t bs := by
  induction as with
  | nil => intro s t h; injection h with h; subst h; rfl
  | cons op as ih =>
    intro s t h
    rw [List.cons_append]
    rw [run] at h ⊢
    cases hs : step w s op with
    | error p => rw [hs] at h; cases h
    | ok r => obtain ⟨u, e⟩ := r; rw [hs] at h; exact ih h

theorem run_ainv {w : World} {uri : Bytes} {user : Option (Bytes × Bytes)} (ops : List Op) : ∀ {s s' : Sess}, Reachable w s → NoOpen ops → AInv w uri user s →
    run w s ops = .ok s' → AInv w uri user s' := by
  induction ops with
  | nil => intro s s' _ _ hi h; injection h with h; subst h; exact hi
  | cons op ops ih =>
    intro s s' hr hno hi h
    have h' := h
    unfold run at h
    cases hs : step w s op with
    | error p => rw [hs] at h; cases h
    | ok r =>
      obtain ⟨t, e⟩ := r
      rw [hs] at h
      have hrt : Reachable w t := by
        obtain ⟨os, ho⟩ := hr
        refine ⟨os ++ [op], ?_⟩
        rw [run_append os [op] ho]
        unfold run
        rw [hs]
        rfl
      exact ih hrt (fun o ho => hno o (by simp [ho])) (atranss_inv (step_atrans hr (hno op (by simp)) hs) hi) h

/-- After `Open` the invariant holds for ever. -/
theorem opened_ainv {w : World} {uri : Bytes} {proto : Proto} {user : Option (Bytes × Bytes)} {ops : List Op} {s : Sess} (hno : NoOpen ops)
    (h : run w newSession (.open_ uri proto user :: ops) = .ok s) : AInv w uri user s := by
  have h' := h
  unfold run at h
  cases hs : step w newSession (.open_ uri proto user) with
  | error p => rw [hs] at h; cases h
  | ok r =>
    obtain ⟨t, e⟩ := r
    rw [hs] at h
    have hrt : Reachable w t := ⟨[.open_ uri proto user], by unfold run; rw [hs]; rfl⟩
    refine run_ainv ops hrt hno ?_ h
    have hs : command w { newSession with opened := true, baseURI := uri, proto := proto, user := user } verbOptions uri [] = .ok (t, e) := hs
    refine atranss_inv (command_atrans (.inr rfl) hs) ⟨rfl, rfl, rfl, ?_⟩
    intro a b r q res e
    cases a <;> cases e

end Ouro
