import Verif.Spec.Dialogue
import Verif.Props.Setup
import Verif.Props.EndToEnd
import Verif.Props.Listen
import Verif.Props.Digest
import Verif.Props.Crash
/-! # Lemmas for C84: the session with a server that grants its requests -/
namespace Ouro
open Spec

/-- Where the session is. -/
inductive Kind
  | options
  | describe
  | setup
  | idle (k : Nat)
  | cmd (k : Nat)

/-- The state at each of these places; `qs` are the requests waiting for a response. -/
def Kind.Ok (w : World) (one : Bool) (s : Sess) (qs : List Request) : Kind → Prop
  | .options => s.stage = 0 ∧ s.feedidx = 0 ∧ s.cseq = 1 ∧ ∃ q, qs = [q] ∧ q.verb = b!"OPTIONS"
  | .describe => s.stage = 0 ∧ s.feedidx = 0 ∧ s.cseq = 2 ∧ ∃ q, qs = [q] ∧ q.verb = b!"DESCRIBE"
  | .setup => s.stage = 0 ∧ s.cseq < 2 ^ 60 + 3 ∧ qs ≠ [] ∧ (∀ q ∈ qs, q.verb = b!"SETUP") ∧ (one = true → qs.length = 1) ∧
      ∃ pre post : List Feed, s.feeds = pre ++ post ∧ pre.length = s.feedidx ∧ post.map Feed.cseq = qs.map Request.cseq ∧
        (∀ f ∈ pre, f.cseq + qs.length ≤ s.cseq) ∧ ∀ f ∈ post, ∃ x, spropLoop w.inf f.sets f.media.spropParameterSets = .ok (x, none)
  | .idle k => s.stage = k ∧ 1 ≤ k ∧ k ≤ 4 ∧ s.cseq < 2 ^ 60 + 3 + k ∧ qs = []
  | .cmd k => s.stage + 1 = k ∧ 2 ≤ k ∧ k ≤ 4 ∧ s.cseq < 2 ^ 60 + 3 + k ∧ ∃ q, qs = [q] ∧ stageAfter q.verb = some k

structure At (w : World) (tm : Terms) (s : Sess) (kd : Kind) (qs : List Request) : Prop where
  opened : s.opened = true
  proto : s.proto = .tcp
  user : s.user = tm.user
  find : ∀ q ∈ qs, s.find q.cseq = some q
  nums : ∃ m, s.cseq = m + qs.length ∧ qs.map Request.cseq = numbers m qs.length
  kind : kd.Ok w tm.one s qs

theorem numbers_succ (m n : Nat) : numbers m (n + 1) = ((m : Int) + 1) :: numbers (m + 1) n := by
  unfold numbers
  rw [List.range_succ_eq_map, List.map_cons, List.map_map]
  refine List.cons_eq_cons.2 ⟨by simp, List.map_congr_left fun i _ => ?_⟩
  simp only [Function.comp_apply]
  omega

/-- The loop of `Setup`, with the requests it sends. -/
theorem setupLoop_asks {w : World} (hw : ∀ o b, w.write o b = .ok) (fs : List Feed) : ∀ (done : List Feed) (s : Sess), s.opened = true → s.proto ≠ .http → s.feeds = done ++ fs →
    ∃ (s' : Sess) (qs : List Request), setupLoop w done fs s = .ok (s', none) ∧ s'.feeds = done ++ numberFrom s.cseq fs ∧ s'.feedidx = s.feedidx ∧ s'.cseq = s.cseq + fs.length ∧
      s'.stage = s.stage ∧ SameStatic s s' ∧
      (∀ c : Int, c ≤ s.cseq → s'.find c = s.find c) ∧ s'.out = (qs.map fun q => Out.sent false q .ok).reverse ++ s.out ∧
      qs.map Request.cseq = numbers s.cseq fs.length ∧ (∀ q ∈ qs, q.verb = b!"SETUP" ∧ s'.find q.cseq = some q) := by
  induction fs with
  | nil =>
    intro done s _ _ hf
    exact ⟨s, [], rfl, by rw [hf]; rfl, rfl, rfl, rfl, .refl _, fun _ _ => rfl, rfl, rfl, fun q hq => by (cases hq)⟩
  | cons f fs ih =>
    intro done s ho hp hf
    obtain ⟨t, ht⟩ := command_ok hw ho hp verbSetup (setupURI s.baseURI f.media.control) [(b!"Transport", f.transportHeader)]
    unfold setupLoop
    rw [ht]
    dsimp only
    rcases command_out ht with ⟨_, _, h⟩ | ⟨_, _, a, x, res, rfl, he⟩
    · cases h
    · have hres : res = .ok := by cases res with
        | ok => rfl
        | timeout => cases he
        | failed => cases he
      subst hres
      generalize hreq : (⟨verbSetup, (s.cseq : Int) + 1, setupURI s.baseURI f.media.control, a, s.session, _⟩ : Request) = req at *
      have hseq : req.cseq = (s.cseq : Int) + 1 := by rw [← hreq]
      have hv : req.verb = b!"SETUP" := by rw [← hreq]; rfl
      obtain ⟨t, ht'⟩ : ∃ y : Sess, y = { s with auth := x, cseq := s.cseq + 1, queue := insertReq s.queue req, out := .sent false req .ok :: s.out, feeds := done ++ { f with cseq := ((s.cseq + 1 : Nat) : Int) } :: fs } := ⟨_, rfl⟩
      obtain ⟨s', qs, h1, h2, h3, h4, h5, h6, h7, h8, h9, h10⟩ := ih (done ++ [{ f with cseq := ((s.cseq + 1 : Nat) : Int) }]) t
        (by rw [ht']; exact ho) (by rw [ht']; exact hp) (by rw [ht']; simp)
      have hfind : ∀ c, t.find c = if req.cseq = c then some req else s.find c := fun c => by rw [ht']; exact find_insert s.queue req c
      have htc : t.cseq = s.cseq + 1 := by rw [ht']
      rw [htc] at h2 h4 h7 h9
      rw [ht'] at h1
      refine ⟨s', req :: qs, h1, ?_, ?_, ?_, ?_, ?_, ?_, ?_, ?_, ?_⟩
      · rw [h2]; simp [numberFrom]
      · rw [h3, ht']
      · rw [h4]; simp only [List.length_cons]; omega
      · rw [h5, ht']
      · exact h6.after (by rw [ht']) (by rw [ht']) (by rw [ht']) (by rw [ht'])
      · intro c hc
        rw [h7 c (by omega), hfind, if_neg (by omega)]
      · rw [h8, ht']; simp
      · rw [List.map_cons, h9, List.length_cons, numbers_succ, hseq]
      · intro q hq
        rcases List.mem_cons.1 hq with rfl | hq
        · exact ⟨hv, by rw [h7 _ (by omega), hfind, if_pos rfl]⟩
        · exact h10 q hq

/-- A Transport header of the grammar for TCP is accepted. -/
theorem transportSetup_tcp {inf : Nat} {f : Feed} {items : List TItem} (h : ∀ i ∈ items, i.WF) {x : ParameterSets} (hx : spropLoop inf f.sets f.media.spropParameterSets = .ok (x, none)) :
    ∃ f', f.transportSetup inf (transportText .tcp items) = .ok (f', none) ∧ f'.transp.isTCP = true ∧ f'.cseq = f.cseq := by
  unfold Feed.transportSetup
  rw [C69_server_header_partial _ _ _ h]
  dsimp only
  rw [hx]
  refine ⟨_, rfl, ?_, rfl⟩
  dsimp only
  have key : ∀ (items : List TItem) (t : Transport), t.isTCP = true → (items.foldl (fun t i => i.param.apply t) t).isTCP = true := by
    intro items
    induction items with
    | nil => intro t ht; exact ht
    | cons i items ih =>
      intro t ht
      refine ih _ ?_
      show (TParam.apply t i.param).isTCP = true
      cases i.param <;> exact ht
  exact key _ _ rfl

/-- The answer to the SETUP of one feed over TCP. -/
theorem setupAnswer_tcp {w : World} {rsp : Response} (pre post : List Feed) (f f' : Feed) (s : Sess)
    (h1 : ∀ g ∈ pre, g.cseq ≠ rsp.cseq) (h2 : ∀ g ∈ post, g.cseq ≠ rsp.cseq) (hc : f.cseq = rsp.cseq)
    (ht : f.transportSetup w.inf (rsp.header.get b!"Transport") = .ok (f', none)) (hu : f'.transp.isTCP = true) :
    setupAnswer w rsp [] (pre ++ f :: post) s = .ok ({ s with feedidx := s.feedidx + 1, feeds := pre ++ f' :: post }, none) := by
  rw [setupAnswer_skip pre [] _ s h1, List.nil_append, setupAnswer, if_pos hc, ht]
  dsimp only
  rw [if_pos hu]
  obtain ⟨t, ht⟩ : ∃ x : Sess, x = { s with feedidx := s.feedidx + 1, feeds := pre ++ f' :: post } := ⟨_, rfl⟩
  rw [← ht]
  have := setupAnswer_skip (w := w) (rsp := rsp) post (pre ++ [f']) [] t h2
  rw [List.append_nil] at this
  rw [this, setupAnswer]
  rfl

/-- What the session takes from a response of the server. -/
structure Good (w : World) (tm : Terms) (k : Nat) (q : Request) (rsp : Response) : Prop where
  cseq : rsp.cseq = q.cseq
  kind : (rsp.statusCode = 200 ∧ (q.verb = b!"DESCRIBE" → ∃ body, rsp.body = some body ∧ Describes w tm.one body) ∧
      (q.verb = b!"SETUP" → ∃ items : List TItem, (∀ i ∈ items, i.WF) ∧ rsp.header.get b!"Transport" = transportText .tcp items)) ∨
    (rsp.statusCode = 401 ∧ (q.verb = b!"SETUP" → tm.one = true) ∧ (q.auth = [] ∨ k < tm.patience) ∧ tm.user ≠ none ∧ Challenge (rsp.header.get b!"WWW-Authenticate"))

/-- How the session goes on: the place, the requests sent and the stages reported. -/
inductive Goes (early : Prop) : Kind → List Request → List Request → List Nat → Kind → Prop
  | again (kd q q') : q.auth = [] ∨ early → q'.auth ≠ [] → (∀ k, kd ≠ .idle k) → Goes early kd [q] [q'] [] kd
  | described (q q') : Goes early .options [q] [q'] [] .describe
  | setups (q qs) : Goes early .describe [q] qs [] .setup
  | setup (q qs) : qs ≠ [] → Goes early .setup (q :: qs) [] [] .setup
  | ready (q) : Goes early .setup [q] [] [1] (.idle 1)
  | granted (q k) : Goes early (.cmd k) [q] [] [k] (.idle k)

/-- The requests among the events of the session, oldest first. -/
def requestsIn (o : List Out) : List Request := o.reverse.filterMap fun x => match x with | .sent _ req _ => some req | _ => none

theorem newDigest_challenge {v : Bytes} (h : Challenge v) (uri : Bytes) : ∃ d, newDigest uri v = .ok d := by
  obtain ⟨basic, ps, h1, h2, h3, h4, rfl⟩ := h
  obtain ⟨d, hd, _⟩ := (C41_parsed_partial uri [] [] basic ps h1 h2 h3 (by simp) (by simp)).2 (.inl h4)
  rw [List.nil_append, List.append_nil] at hd
  exact ⟨d, hd⟩

theorem authCall_nonempty {md5 : Bytes → Bytes} {rnd : Bytes} {d : Digest} {u p : Bytes} {f : AuthFunc} {d' : Digest} (h : authenticate md5 rnd d u p = .ok (f, d')) {verb body a : Bytes} {d'' : Digest}
    (h2 : authCall md5 f d' verb body = .ok (a, d'')) : a ≠ [] := by
  unfold authenticate at h
  split at h
  · rw [colonnade_ok] at h
    injection h with h; injection h with h _; subst h
    injection h2 with h2; injection h2 with h2 _; subst h2
    simp
  · rw [colonnade_ok] at h
    injection h with h; injection h with h _; subst h
    unfold authCall at h2
    dsimp only at h2
    cases hr : digestResponse md5 d' verb body with
    | error p => rw [hr] at h2; cases h2
    | ok r =>
      rw [hr] at h2
      injection h2 with h2; injection h2 with h2 _; subst h2
      simp

/-- A request is sent again after a challenge. -/
theorem at_retry {w : World} (hw : ∀ o b, w.write o b = .ok) {tm : Terms} {s : Sess} {kd : Kind} {q : Request} {qs : List Request} {rsp : Response}
    (h : At w tm s kd (q :: qs)) (hc : rsp.cseq = q.cseq) (h401 : rsp.statusCode = 401) (hv : q.verb = b!"SETUP" → tm.one = true) {k : Nat} (ha : q.auth = [] ∨ k < tm.patience) (hu : tm.user ≠ none)
    (hch : Challenge (rsp.header.get b!"WWW-Authenticate")) :
    ∃ (s' : Sess) (q' : Request), handleItem w s (.response rsp) = .ok (s', none) ∧ s'.out = .sent true q' .ok :: .got rsp :: s.out ∧ qs = [] ∧
      Goes (k < tm.patience) kd (q :: qs) [q'] [] kd ∧ At w tm s' kd [q'] := by
  have hkd : (∀ k, kd ≠ .idle k) ∧ qs = [] := by
    have hk := h.kind
    cases kd with
    | options => obtain ⟨_, _, _, q1, e, _⟩ := hk; injection e with _ e; exact ⟨by simp, e⟩
    | describe => obtain ⟨_, _, _, q1, e, _⟩ := hk; injection e with _ e; exact ⟨by simp, e⟩
    | setup =>
      have := hk.2.2.2.2.1 (hv (hk.2.2.2.1 q (by simp)))
      rw [List.length_cons] at this
      exact ⟨by simp, List.length_eq_zero_iff.1 (by omega)⟩
    | idle k => cases hk.2.2.2.2
    | cmd k => obtain ⟨_, _, _, _, q1, e, e2⟩ := hk; injection e with _ e; exact ⟨by simp, e⟩
  obtain ⟨hkd, rfl⟩ := hkd
  obtain ⟨m, hm1, hm2⟩ := h.nums
  have hqc : q.cseq = s.cseq := by
    have : numbers m 1 = [(m : Int) + 1] := numbers_succ m 0
    rw [show ([q] : List Request).length = 1 from rfl, this] at hm2
    injection hm2 with hm2
    rw [hm2, hm1]; simp
  obtain ⟨d, hd⟩ := newDigest_challenge hch s.baseURI
  obtain ⟨u, p, hup⟩ : ∃ u p, s.user = some (u, p) := by
    rw [h.user]
    cases hu' : tm.user with
    | none => exact absurd hu' hu
    | some up => exact ⟨up.1, up.2, rfl⟩
  obtain ⟨⟨f, d'⟩, hf⟩ := authenticate_ok w.md5 (w.rnd (.got rsp :: s.out)) d u p
  obtain ⟨⟨a, d''⟩, hcall⟩ := authCall_ok w.md5 f d' q.verb []
  have hane := authCall_nonempty hf hcall
  refine ⟨{ s with auth := some (f, d''), queue := insertReq (s.queue.filter (fun e => e.1 ≠ rsp.cseq)) { q with auth := a, cseq := s.cseq, session := s.session }, out := .sent true { q with auth := a, cseq := s.cseq, session := s.session } .ok :: .got rsp :: s.out },
    { q with auth := a, cseq := s.cseq, session := s.session }, ?_, rfl, rfl, .again kd q _ ha hane hkd, ?_⟩
  · show handleRtsp w { s with out := .got rsp :: s.out } rsp = _
    unfold handleRtsp
    rw [show ({ s with out := .got rsp :: s.out } : Sess).find rsp.cseq = some q by rw [hc]; exact h.find q (by simp)]
    dsimp only
    rw [if_pos h401]
    obtain ⟨t, ht⟩ : ∃ t : Sess, t = ({ s with out := .got rsp :: s.out } : Sess).remove rsp.cseq := ⟨_, rfl⟩
    rw [← ht]
    have hau : authorize w t (rsp.header.get b!"WWW-Authenticate") = .ok ({ t with auth := some (f, d') }, none) := by
      unfold authorize
      rw [show newDigest t.baseURI (rsp.header.get b!"WWW-Authenticate") = .ok d by rw [ht]; exact hd]
      dsimp only
      have htu : t.user = some (u, p) := by rw [ht]; exact hup
      split
      · next h => rw [htu] at h; cases h
      · next u' p' h =>
        rw [htu] at h
        injection h with h; injection h with h1 h2
        rw [← h1, ← h2, show w.rnd t.out = w.rnd (.got rsp :: s.out) by rw [ht]; rfl, hf]
        rfl
    unfold retry
    rw [hau]
    dsimp only
    unfold callAuth
    dsimp only
    rw [hcall]
    dsimp only [pure, Except.pure, enqueue]
    unfold writeReq
    rw [if_neg (by dsimp only; rw [ht]; show s.proto ≠ _; rw [h.proto]; decide), hw]
    rw [ht]
    rfl
  · refine ⟨h.opened, h.proto, h.user, ?_, ⟨m, hm1, ?_⟩, ?_⟩
    · intro q' hq'
      rw [List.mem_singleton] at hq'
      subst hq'
      exact (find_insert _ _ _).trans (if_pos rfl)
    · show [(s.cseq : Int)] = numbers m 1
      have hm2 : [q.cseq] = numbers m 1 := hm2
      rw [← hm2, hqc]
    · have hk := h.kind
      cases kd with
      | options =>
        obtain ⟨k1, k2, k3, q1, e, k4⟩ := hk
        injection e with e _; subst e
        exact ⟨k1, k2, k3, _, rfl, k4⟩
      | describe =>
        obtain ⟨k1, k2, k3, q1, e, k4⟩ := hk
        injection e with e _; subst e
        exact ⟨k1, k2, k3, _, rfl, k4⟩
      | setup =>
        obtain ⟨k1, k2, k3, k4, k5, pre, post, k6, k7, k8, k9, k10⟩ := hk
        refine ⟨k1, k2, by simp, ?_, fun _ => rfl, pre, post, k6, k7, ?_, k9, k10⟩
        · intro x hx
          rw [List.mem_singleton] at hx; subst hx
          exact k4 q (by simp)
        · rw [k8]; show [q.cseq] = [(s.cseq : Int)]; rw [hqc]
      | idle k => exact absurd rfl (hkd k)
      | cmd k =>
        obtain ⟨k1, k2, k3, k4, q1, e, k5⟩ := hk
        injection e with e _; subst e
        exact ⟨k1, k2, k3, k4, _, rfl, k5⟩

/-- A granted request: the session with the request removed. -/
theorem grant_step {w : World} {tm : Terms} {s : Sess} {kd : Kind} {q : Request} {qs : List Request} {rsp : Response}
    (h : At w tm s kd (q :: qs)) (hc : rsp.cseq = q.cseq) (h200 : rsp.statusCode = 200) :
    ∃ t : Sess, handleItem w s (.response rsp) = answer w t q.verb rsp ∧ t.out = .got rsp :: s.out ∧ t.opened = true ∧ t.proto = .tcp ∧ t.user = tm.user ∧ t.cseq = s.cseq ∧
      t.stage = s.stage ∧ t.feedidx = s.feedidx ∧ t.feeds = s.feeds ∧ t.baseURI = s.baseURI ∧ ∀ c, t.find c = if c = q.cseq then none else s.find c := by
  refine ⟨{ s with queue := s.queue.filter (fun e => e.1 ≠ rsp.cseq), session := learned s.session (rsp.header.get b!"Session"), out := .got rsp :: s.out }, ?_, rfl, h.opened, h.proto, h.user, rfl, rfl, rfl, rfl, rfl, ?_⟩
  · show handleRtsp w { s with out := .got rsp :: s.out } rsp = _
    unfold handleRtsp
    rw [show ({ s with out := .got rsp :: s.out } : Sess).find rsp.cseq = some q by rw [hc]; exact h.find q (by simp)]
    dsimp only
    rw [if_neg (by rw [h200]; decide), learnSession_eq]
    rfl
  · intro c
    rw [← hc]
    exact find_filter s.queue rsp.cseq c

/-- A command, with the request it sends. -/
theorem command_asks {w : World} (hw : ∀ o b, w.write o b = .ok) {s : Sess} (ho : s.opened = true) (hp : s.proto = .tcp) (verb uri : Bytes) (hs : Header) :
    ∃ (t : Sess) (q : Request), command w s verb uri hs = .ok (t, none) ∧ t.out = .sent false q .ok :: s.out ∧ q.verb = verb ∧ q.cseq = (s.cseq : Int) + 1 ∧ t.cseq = s.cseq + 1 ∧
      t.stage = s.stage ∧ t.feedidx = s.feedidx ∧ t.feeds = s.feeds ∧ SameStatic s t ∧ ∀ c, t.find c = if q.cseq = c then some q else s.find c := by
  obtain ⟨t, ht⟩ := command_ok hw ho (by rw [hp]; decide) verb uri hs
  rcases command_out ht with ⟨_, _, h⟩ | ⟨_, _, a, x, res, rfl, he⟩
  · cases h
  · have hres : res = .ok := by cases res with
      | ok => rfl
      | timeout => cases he
      | failed => cases he
    subst hres
    exact ⟨_, _, ht, rfl, rfl, rfl, rfl, rfl, rfl, rfl, ⟨rfl, rfl, rfl, rfl⟩, fun c => find_insert s.queue _ c⟩

theorem at_answer {w : World} (hw : ∀ o b, w.write o b = .ok) {tm : Terms} {s : Sess} {kd : Kind} {q : Request} {qs : List Request} {rsp : Response}
    {k : Nat} (h : At w tm s kd (q :: qs)) (hg : Good w tm k q rsp) :
    ∃ (s' : Sess) (o : List Out) (news : List Request) (notes : List Nat) (kd' : Kind), handleItem w s (.response rsp) = .ok (s', none) ∧ s'.out = o ++ s.out ∧
      sentStages o = notes ∧ sentData o = [] ∧ requestsIn o = news ∧ Goes (k < tm.patience) kd (q :: qs) news notes kd' ∧ At w tm s' kd' (qs ++ news) := by
  rcases hg.kind with ⟨h200, hdesc, hset⟩ | ⟨h401, hv, ha, hu, hch⟩
  · obtain ⟨t, ht, e1, e2, e3, e4, e5, e6, e7, e8, e9, e10⟩ := grant_step h hg.cseq h200
    have hk := h.kind
    obtain ⟨m, hm1, hm2⟩ := h.nums
    rw [List.length_cons] at hm1 hm2
    rw [numbers_succ, List.map_cons] at hm2
    injection hm2 with hm2 hm3
    cases kd with
    | options =>
      obtain ⟨k1, k2, k3, q1, e, k4⟩ := hk
      injection e with e e'; subst e; subst e'
      have e2' : ({ t with verbs := t.verbs ++ split2 44 32 (rsp.header.get b!"Public") } : Sess).opened = true := e2
      have e3' : ({ t with verbs := t.verbs ++ split2 44 32 (rsp.header.get b!"Public") } : Sess).proto = .tcp := e3
      obtain ⟨s', q', g1, g2, g3, g4, g5, g6, g7, g8, g9, g10⟩ := command_asks hw e2' e3' verbDescribe t.baseURI [(b!"Accept", b!"application/sdp")]
      refine ⟨s', [.sent false q' .ok, .got rsp], [q'], [], .describe, ?_, ?_, rfl, rfl, rfl, .described _ _, ?_⟩
      · rw [ht, k4]
        unfold answer
        rw [if_pos (by decide), if_pos (by rw [e6, k1]; rfl)]
        exact (deref_open e2').trans g1
      · rw [g2]; show _ :: t.out = _; rw [e1]; rfl
      · dsimp only at g4 g5 g6 g7 g8 g10
        rw [e5, k3] at g4 g5
        refine ⟨by rw [g9.1]; exact e2, by rw [g9.2.1]; exact e3, by rw [g9.2.2.2]; exact e4, ?_, ⟨1, by rw [g5]; rfl, ?_⟩, ?_⟩
        · intro x hx
          rw [List.nil_append, List.mem_singleton] at hx; subst hx
          rw [g10, if_pos rfl]
        · rw [List.nil_append]; show [q'.cseq] = _; rw [g4]; rfl
        · exact ⟨by rw [g6, e6, k1], by rw [g7, e7, k2], g5, q', rfl, g3⟩
    | describe =>
      obtain ⟨k1, k2, k3, q1, e, k4⟩ := hk
      injection e with e e'; subst e; subst e'
      obtain ⟨body, hb, ms, hms, hne, hone, hlen, hsp⟩ := hdesc k4
      have hflen : ∀ (n : Nat) (ms : List Media), (feedsFrom .tcp n ms).length = ms.length := by
        intro n ms
        induction ms generalizing n with
        | nil => rfl
        | cons m ms ih => show (feedsFrom .tcp (n + 1) ms).length + 1 = _; rw [ih]; rfl
      have hfsp : ∀ (ms : List Media) (n : Nat), (∀ m ∈ ms, ∃ x, spropLoop w.inf newParameterSets m.spropParameterSets = .ok (x, none)) →
          ∀ f ∈ feedsFrom .tcp n ms, ∃ x, spropLoop w.inf f.sets f.media.spropParameterSets = .ok (x, none) := by
        intro ms
        induction ms with
        | nil => intro n _ f hf; cases hf
        | cons m ms ih =>
          intro n hms f hf
          rcases List.mem_cons.1 hf with rfl | hf
          · exact hms m (by simp)
          · exact ih (n + 1) (fun m hm => hms m (by simp [hm])) f hf
      obtain ⟨s', rs, g1, g2, g3, g4, g5, g6, g7, g8, g9, g10⟩ := setupLoop_asks hw (feedsFrom .tcp 0 ms) [] { t with feeds := feedsFrom .tcp 0 ms } e2 (by show t.proto ≠ _; rw [e3]; decide) rfl
      dsimp only at g2 g3 g4 g5 g7 g8 g9
      rw [e5, k3, hflen] at g4
      rw [e5, k3] at g2 g7
      rw [e5, k3, hflen] at g9
      have hrl : rs.length = ms.length := by
        have := congrArg List.length g9
        simpa [numbers] using this
      refine ⟨s', (rs.map fun q => Out.sent false q .ok).reverse ++ [.got rsp], rs, [], .setup, ?_, ?_, ?_, ?_, ?_, .setups _ _, ?_⟩
      · rw [ht, k4]
        unfold answer
        rw [if_neg (by decide), if_pos (by decide), hb]
        dsimp only
        rw [show parseFeeds t.proto body = .ok (feedsFrom .tcp 0 ms) by unfold parseFeeds; rw [hms, e3]; rfl]
        exact g1
      · rw [g8, e1]; simp
      · unfold sentStages
        rw [List.reverse_append, List.reverse_reverse]
        show List.filterMap _ (rs.map _) = _
        rw [List.filterMap_map, List.filterMap_eq_nil_iff]
        intro a _; rfl
      · unfold sentData
        rw [List.reverse_append, List.reverse_reverse]
        show List.filterMap _ (rs.map _) = _
        rw [List.filterMap_map, List.filterMap_eq_nil_iff]
        intro a _; rfl
      · unfold requestsIn
        rw [List.reverse_append, List.reverse_reverse]
        show List.filterMap _ (rs.map _) = _
        rw [List.filterMap_map]
        exact List.filterMap_some
      · rw [List.nil_append]
        refine ⟨by rw [g6.1]; exact e2, by rw [g6.2.1]; exact e3, by rw [g6.2.2.2]; exact e4, fun x hx => (g10 x hx).2, ⟨2, by rw [g4, hrl], by rw [g9, hrl]⟩, ?_⟩
        refine ⟨by rw [g5, e6, k1], by rw [g4]; omega, ?_, fun x hx => (g10 x hx).1, fun h => by (rw [hrl]; exact hone h), [], numberFrom 2 (feedsFrom .tcp 0 ms), by rw [g2], by rw [g3, e7, k2]; rfl, ?_, fun f hf => by (cases hf), ?_⟩
        · intro e; rw [e] at hrl; exact hne (List.length_eq_zero_iff.1 hrl.symm)
        · rw [numberFrom_cseq, hflen, g9]
        · intro f hf
          obtain ⟨i, f0, h1, h2⟩ := numberFrom_mem _ _ f hf
          rw [h2]
          exact hfsp ms 0 hsp f0 (List.mem_of_getElem? h1)
    | setup =>
      obtain ⟨k1, k2, k3, k4, kone, pre, post, k5, k6, k7, k8, k9⟩ := hk
      have hv := k4 q (by simp)
      obtain ⟨items, hi1, hi2⟩ := hset hv
      cases post with
      | nil => cases k7
      | cons f post =>
        injection k7 with k7 k7'
        have k7 : f.cseq = q.cseq := k7
        have k7' : post.map Feed.cseq = qs.map Request.cseq := k7'
        obtain ⟨x, hx⟩ := k9 f (by simp)
        obtain ⟨f', hf1, hf2, hf3⟩ := transportSetup_tcp hi1 hx
        have hlater : ∀ y ∈ qs.map Request.cseq, q.cseq < y := by
          intro y hy
          rw [hm3] at hy
          have := numbers_mem hy
          rw [hm2]; push_cast at this; omega
        have hans := setupAnswer_tcp (w := w) (rsp := rsp) pre post f f' t
          (by intro g hg'; have := k8 g hg'; rw [hg.cseq, hm2]; rw [List.length_cons] at this; omega)
          (by
            intro g hg' e
            have : g.cseq ∈ post.map Feed.cseq := List.mem_map.2 ⟨g, hg', rfl⟩
            rw [k7'] at this
            have := hlater _ this
            rw [e, hg.cseq] at this
            omega)
          (by rw [k7, hg.cseq]) (by rw [hi2]; exact hf1) hf2
        have hlenp : post.length = qs.length := by have := congrArg List.length k7'; simpa using this
        have hbase : handleItem w s (.response rsp) = .ok (checkReady { t with feedidx := t.feedidx + 1, feeds := pre ++ f' :: post }, none) := by
          rw [ht, hv]
          unfold answer
          rw [if_neg (by decide), if_neg (by decide), if_neg (by decide), if_neg (by decide), if_neg (by decide), if_pos (by decide)]
          unfold handleSetup
          rw [if_pos h200, e8, k5, hans]
          rfl
        have hfind : ∀ x ∈ qs, t.find x.cseq = some x := by
          intro x hx
          have := hlater x.cseq (List.mem_map.2 ⟨x, hx, rfl⟩)
          rw [e10, if_neg (by omega)]
          exact h.find x (by simp [hx])
        cases qs with
        | nil =>
          have : post = [] := List.length_eq_zero_iff.1 hlenp
          subst this
          rw [checkReady_done (by show t.feedidx + 1 = (pre ++ [f']).length; rw [e7, List.length_append, k6]; rfl)] at hbase
          refine ⟨_, [.started t.sinks, .notified 1, .got rsp], [], [1], .idle 1, hbase, ?_, rfl, rfl, rfl, .ready q, ?_⟩
          · show _ :: _ :: t.out = _; rw [e1]; rfl
          · exact ⟨e2, e3, e4, fun x hx => by (cases hx), ⟨t.cseq, rfl, rfl⟩, rfl, by decide, by decide, by show t.cseq < _; rw [e5]; omega, rfl⟩
        | cons q2 qs =>
          rw [checkReady_wait (by show t.feedidx + 1 < (pre ++ f' :: post).length; rw [e7, List.length_append, k6, List.length_cons, hlenp, List.length_cons]; omega)] at hbase
          refine ⟨_, [.got rsp], [], [], .setup, hbase, e1, rfl, rfl, rfl, .setup q _ (by simp), ?_⟩
          rw [List.append_nil]
          refine ⟨e2, e3, e4, hfind, ⟨m + 1, ?_, ?_⟩, ?_⟩
          · show t.cseq = _; rw [e5, hm1]; omega
          · rw [hm3]
          · refine ⟨by show t.stage = 0; rw [e6]; exact k1, by show t.cseq < _; rw [e5]; exact k2, by simp, fun x hx => k4 x (by simp [hx]), fun h => by (have := kone h; simp at this), pre ++ [f'], post, by simp, ?_, k7', ?_, fun g hg' => k9 g (by simp [hg'])⟩
            · show (pre ++ [f']).length = t.feedidx + 1; rw [e7, List.length_append, k6]; rfl
            · intro g hg'
              show g.cseq + _ ≤ (t.cseq : Int)
              rw [e5]
              rcases List.mem_append.1 hg' with hg' | hg'
              · have := k8 g hg'; rw [List.length_cons] at this; push_cast at this ⊢; omega
              · rw [List.mem_singleton] at hg'; subst hg'
                rw [hf3, k7, hm2, hm1]; push_cast; omega
    | idle k => cases hk.2.2.2.2
    | cmd k =>
      obtain ⟨k1, k2, k3, k4, q1, e, k5⟩ := hk
      injection e with e e'; subst e; subst e'
      have hans : answer w t q.verb rsp = .ok (notify t k, none) := by
        unfold stageAfter at k5
        unfold answer
        split at k5
        · next hv =>
          injection k5 with k5; subst k5
          rw [hv, if_neg (by decide), if_neg (by decide), if_neg (by decide), if_pos (by decide), if_pos h200]; rfl
        · split at k5
          · next hv =>
            injection k5 with k5; subst k5
            rw [hv, if_neg (by decide), if_neg (by decide), if_pos (by decide), if_pos h200]; rfl
          · split at k5
            · next hv =>
              injection k5 with k5; subst k5
              rw [hv, if_neg (by decide), if_neg (by decide), if_neg (by decide), if_neg (by decide), if_pos (by decide), if_pos h200]; rfl
            · cases k5
      refine ⟨notify t k, [.notified k, .got rsp], [], [k], .idle k, by rw [ht, hans], ?_, rfl, rfl, rfl, .granted q k, ?_⟩
      · show _ :: t.out = _; rw [e1]; rfl
      · exact ⟨e2, e3, e4, fun x hx => by (cases hx), ⟨t.cseq, rfl, rfl⟩, rfl, by omega, k3, by show t.cseq < _; rw [e5]; omega, rfl⟩
  · obtain ⟨s', q', g1, g2, rfl, g4, g5⟩ := at_retry hw h hg.cseq h401 hv ha hu hch
    exact ⟨s', [.sent true q' .ok, .got rsp], [q'], [], kd, g1, g2, rfl, rfl, rfl, g4, g5⟩

end Ouro
