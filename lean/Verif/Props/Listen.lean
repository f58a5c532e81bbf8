import Verif.Spec.Listen
import Verif.Props.Commands
/-! # C78: UDP listeners -/
namespace Ouro
open Spec

theorem apply_port (p : TParam) (t : Transport) : (p.apply t).isTCP = t.isTCP ∧ (p.apply t).port = ((match p with | .port r => some r.pair | _ => none).getD t.port) := by
  cases p <;> exact ⟨rfl, rfl⟩

theorem items_port (items : List TItem) : ∀ t : Transport, (items.foldl (fun t i => i.param.apply t) t).isTCP = t.isTCP ∧
    (items.foldl (fun t i => i.param.apply t) t).port = (portGiven items).getD t.port := by
  induction items with
  | nil => intro t; exact ⟨rfl, rfl⟩
  | cons i is ih =>
    intro t
    obtain ⟨h1, h2⟩ := ih (i.param.apply t)
    obtain ⟨h3, h4⟩ := apply_port i.param t
    refine ⟨h1.trans h3, h2.trans ?_⟩
    rw [h4]
    rw [portGiven]
    cases portGiven is with
    | none => rw [Option.none_or]; rfl
    | some p => rfl

/-- The feeds before and after the one that is granted are left alone. -/
theorem setupAnswer_skip {w : World} {rsp : Response} (xs : List Feed) : ∀ (done ys : List Feed) (s : Sess), (∀ f ∈ xs, f.cseq ≠ rsp.cseq) →
    setupAnswer w rsp done (xs ++ ys) s = setupAnswer w rsp (done ++ xs) ys s := by
  induction xs with
  | nil => intro done ys s _; rw [List.append_nil]; rfl
  | cons x xs ih =>
    intro done ys s h
    show setupAnswer w rsp done (x :: (xs ++ ys)) s = _
    rw [setupAnswer, if_neg (h x (by simp)), ih _ _ _ (fun f hf => h f (by simp [hf]))]
    simp

/-- The answer to the SETUP of one feed. -/
theorem setupAnswer_one {w : World} {rsp : Response} (pre post : List Feed) (f f' : Feed) (s : Sess)
    (hl1 : w.listen s.out s.sinks f'.transp.port.one = .ok)
    (hl2 : w.listen s.out (s.sinks ++ [(UInt8.ofNat (s.feedidx + 1) * 2, f'.transp.port.one)]) f'.transp.port.two = .ok)
    (h1 : ∀ g ∈ pre, g.cseq ≠ rsp.cseq) (h2 : ∀ g ∈ post, g.cseq ≠ rsp.cseq) (hc : f.cseq = rsp.cseq)
    (ht : f.transportSetup w.inf (rsp.header.get b!"Transport") = .ok (f', none)) (hu : f'.transp.isTCP = false) :
    setupAnswer w rsp [] (pre ++ f :: post) s = .ok ({ s with feedidx := s.feedidx + 1, feeds := pre ++ f' :: post, sinks := s.sinks ++ [(UInt8.ofNat (s.feedidx + 1) * 2, f'.transp.port.one), (UInt8.ofNat (s.feedidx + 1) * 2 + 1, f'.transp.port.two)] }, none) := by
  rw [setupAnswer_skip pre [] _ s h1, List.nil_append, setupAnswer, if_pos hc, ht]
  dsimp only
  rw [hu, if_neg (by decide)]
  unfold addSink
  rw [hl1]
  dsimp only
  rw [hl2]
  dsimp only
  have := setupAnswer_skip (w := w) (rsp := rsp) post (pre ++ [f']) [] ⟨s.opened, s.proto, s.baseURI, s.user, s.stage, s.auth, s.queue, s.session, pre ++ f' :: post, s.feedidx + 1, s.verbs, s.cseq,
    s.sinks ++ [(UInt8.ofNat (s.feedidx + 1) * 2, f'.transp.port.one)] ++ [(UInt8.ofNat (s.feedidx + 1) * 2 + 1, f'.transp.port.two)], s.out⟩ h2
  rw [List.append_nil] at this
  rw [this, setupAnswer]
  simp only [pure, Except.pure, List.append_assoc, List.cons_append, List.nil_append]

theorem new_port (proto : Proto) (hp : proto = .unicast ∨ proto = .multicast) (i : Nat) (hi : i < 2 ^ 60) :
    (newTransport proto (i64 ((i : Int) * 2))).isTCP = false ∧ (newTransport proto (i64 ((i : Int) * 2))).port = if proto = .multicast then portsAsked i else ⟨0, 0⟩ := by
  have e0 : i64 ((i : Int) * 2) = ((2 * i : Nat) : Int) := by unfold i64; omega
  have e2 : i64 (firstUDPPort + ((2 * i : Nat) : Int)) = ((50000 + 2 * i : Nat) : Int) := by unfold i64 firstUDPPort; omega
  have e3 : i64 (((50000 + 2 * i : Nat) : Int) + 1) = ((50000 + 2 * i + 1 : Nat) : Int) := by unfold i64; omega
  rcases hp with rfl | rfl
  · exact ⟨rfl, rfl⟩
  · refine ⟨rfl, ?_⟩
    rw [e0]
    unfold newTransport portsAsked
    dsimp only
    rw [e2, e3]
    simp

/-- The feeds that still wait, numbered from `k`. -/
theorem grants_run {w : World} (proto : Proto) (hproto : proto = .unicast ∨ proto = .multicast) (c : Nat) (gs : List Grant) :
    ∀ (j : Nat) (ops : List Op) (done : List Feed) (ms : List Media) (s : Sess), (∀ x ∈ listenersOf proto j gs, ∀ o k, w.listen o k x.2 = .ok) → GrantAll (c + j) gs ops → (∀ g ∈ gs, g.WF) → gs.length = ms.length → j + ms.length < 2 ^ 60 → gs ≠ [] →
    (∀ m ∈ ms, ∃ x, spropLoop w.inf newParameterSets m.spropParameterSets = .ok (x, none)) →
    s.feeds = done ++ numberFrom (c + j) (feedsFrom proto j ms) → done.length = j → (∀ f ∈ done, f.cseq ≤ (c + j : Int)) → s.feedidx = j →
    (∀ i, i < ms.length → ∃ q, s.find ((c + j : Nat) + 1 + i) = some q ∧ q.verb = b!"SETUP") →
    ∃ s' rest, Runs w s ops s' ∧ s'.out = .started (s.sinks ++ listenersOf proto j gs) :: .notified 1 :: rest ∧ readies rest = readies s.out := by
  induction gs with
  | nil => intro j ops done ms s _ _ _ _ _ hne; exact absurd rfl hne
  | cons g gs ih =>
    intro j ops done ms s hl hall hwf hlen hbig _ hsp hfeeds hdl hdone hidx hfind
    cases hall with
    | @cons _ _ _ ops rsp hg hrest =>
    obtain ⟨hc, h200, hhdr⟩ := hg
    cases ms with
    | nil => cases hlen
    | cons m ms =>
    simp only [List.length_cons] at hlen hbig
    obtain ⟨hlow, hitems⟩ := hwf g (by simp)
    obtain ⟨x, hx⟩ := hsp m (by simp)
    obtain ⟨q, hq, hqv⟩ := hfind 0 (by simp)
    have hq : s.find rsp.cseq = some q := by rw [hc]; simpa using hq
    obtain ⟨hn1, hn2⟩ := new_port proto hproto j (by omega)
    -- the transport after the header
    let f : Feed := { media := m, transp := newTransport proto (i64 ((j : Int) * 2)), cseq := ((c + j + 1 : Nat) : Int), sets := newParameterSets }
    let tr : Transport := g.items.foldl (fun t i => i.param.apply t) (g.low.apply f.transp)
    have htr : f.transp.parse (rsp.header.get b!"Transport") = (tr, none) := by rw [hhdr]; exact C69_server_header_partial _ _ _ hitems
    have hlowt : (g.low.apply f.transp).isTCP = false ∧ (g.low.apply f.transp).port = f.transp.port := by
      cases hh : g.low with
      | tcp => exact absurd hh hlow
      | udp => exact ⟨rfl, rfl⟩
      | unspecified => exact ⟨hn1, rfl⟩
    obtain ⟨hp1, hp2⟩ := items_port g.items (g.low.apply f.transp)
    have hport : tr.port = (portGiven g.items).getD (if proto = .multicast then portsAsked j else ⟨0, 0⟩) := by rw [hp2, hlowt.2, hn2]
    have hts : f.transportSetup w.inf (rsp.header.get b!"Transport") = .ok ({ f with transp := tr, sets := x, isSet := true }, none) := by
      unfold Feed.transportSetup
      rw [htr]
      dsimp only
      rw [hx]
      rfl
    have hfe : s.feeds = done ++ f :: numberFrom (c + j + 1) (feedsFrom proto (j + 1) ms) := by rw [hfeeds]; rfl
    have hpost : ∀ h ∈ numberFrom (c + j + 1) (feedsFrom proto (j + 1) ms), h.cseq ≠ rsp.cseq := by
      intro h hh e
      obtain ⟨i, f0, _, rfl⟩ := numberFrom_mem _ _ h hh
      rw [hc] at e
      dsimp only at e
      omega
    have hans := setupAnswer_one (w := w) (rsp := rsp) done (numberFrom (c + j + 1) (feedsFrom proto (j + 1) ms)) f { f with transp := tr, sets := x, isSet := true }
      { s with queue := s.queue.filter (fun e => e.1 ≠ rsp.cseq), session := learned s.session (rsp.header.get b!"Session"), out := .got rsp :: s.out }
      (by rw [show ({ f with transp := tr, sets := x, isSet := true } : Feed).transp.port = _ from hport]; exact hl (_, _) (by unfold listenersOf; exact List.mem_cons_self) _ _)
      (by rw [show ({ f with transp := tr, sets := x, isSet := true } : Feed).transp.port = _ from hport]; exact hl (_, _) (by unfold listenersOf; exact List.mem_cons_of_mem _ List.mem_cons_self) _ _)
      (fun h hh e => by have := hdone h hh; rw [e, hc] at this; omega) hpost (by rw [hc]; show ((c + j + 1 : Nat) : Int) = _; omega) hts (hp1.trans hlowt.1)
    dsimp only at hans
    rw [hidx, hport, hfe] at hans
    generalize ht : ({ s with queue := s.queue.filter (fun e => e.1 ≠ rsp.cseq), session := learned s.session (rsp.header.get b!"Session"), out := .got rsp :: s.out, feedidx := j + 1, feeds := done ++ { f with transp := tr, sets := x, isSet := true } :: numberFrom (c + j + 1) (feedsFrom proto (j + 1) ms), sinks := s.sinks ++ [(UInt8.ofNat (j + 1) * 2, ((portGiven g.items).getD (if proto = .multicast then portsAsked j else ⟨0, 0⟩)).one), (UInt8.ofNat (j + 1) * 2 + 1, ((portGiven g.items).getD (if proto = .multicast then portsAsked j else ⟨0, 0⟩)).two)] } : Sess) = t at *
    have hstep : step w s (.item (.response rsp)) = .ok (checkReady t, none) := by
      show handleRtsp w { s with out := .got rsp :: s.out } rsp = _
      unfold handleRtsp
      rw [show ({ s with out := .got rsp :: s.out } : Sess).find rsp.cseq = some q from hq]
      dsimp only
      rw [if_neg (by rw [h200]; decide), learnSession_eq]
      unfold answer
      rw [hqv, if_neg (by decide), if_neg (by decide), if_neg (by decide), if_neg (by decide), if_neg (by decide), if_pos (by decide)]
      unfold handleSetup
      rw [if_pos h200]
      dsimp only [Sess.remove]
      rw [hfe, hidx, hans]
      rfl
    have hflen : ∀ (k n : Nat) (ms : List Media), (numberFrom k (feedsFrom proto n ms)).length = ms.length := by
      intro k n ms
      induction ms generalizing k n with
      | nil => rfl
      | cons m ms ih => show (numberFrom (k + 1) (feedsFrom proto (n + 1) ms)).length + 1 = _; rw [ih]; rfl
    have htf : t.feeds.length = j + 1 + ms.length := by
      rw [← ht]
      simp only [List.length_append, List.length_cons, hflen, hdl]
      omega
    have htidx : t.feedidx = j + 1 := by rw [← ht]
    by_cases hne : gs = []
    · subst hne
      cases hrest
      have hms : ms = [] := List.length_eq_zero_iff.1 (by simp only [List.length_nil] at hlen; omega)
      subst hms
      refine ⟨checkReady t, .got rsp :: s.out, .cons hstep (.nil _), ?_, rfl⟩
      unfold checkReady
      rw [if_pos (by rw [htf, htidx]; simp)]
      rw [← ht]
      rfl
    · have hms : 0 < ms.length := by
        have : gs.length ≠ 0 := fun h => hne (List.length_eq_zero_iff.1 h)
        omega
      have hcr : checkReady t = t := by
        unfold checkReady
        rw [if_neg (by rw [htf, htidx]; omega)]
      rw [hcr] at hstep
      obtain ⟨s', rest, h1, h2, h3⟩ := ih (j + 1) ops (done ++ [{ f with transp := tr, sets := x, isSet := true }]) ms t
        (fun x hx => hl x (by unfold listenersOf; exact List.mem_cons_of_mem _ (List.mem_cons_of_mem _ hx))) (by rw [← Nat.add_assoc]; exact hrest) (fun g hg => hwf g (by simp [hg])) (by omega) (by omega) hne (fun m hm => hsp m (by simp [hm]))
        (by rw [← ht]; simp only [List.append_assoc, List.cons_append, List.nil_append]; rfl) (by simp [hdl])
        (by
          intro h hh
          rcases List.mem_append.1 hh with hh | hh
          · have := hdone h hh; omega
          · rw [List.mem_singleton] at hh
            subst hh
            show ((c + j + 1 : Nat) : Int) ≤ _
            omega) htidx
        (by
          intro i hi
          obtain ⟨q', hq', hv'⟩ := hfind (i + 1) (by simp only [List.length_cons]; omega)
          refine ⟨q', ?_, hv'⟩
          have e : ((c + (j + 1) : Nat) : Int) + 1 + i = ((c + j : Nat) : Int) + 1 + ((i + 1 : Nat) : Int) := by omega
          rw [e, ← hq', ← ht]
          refine (find_remove s rsp.cseq _).trans (if_neg ?_)
          rw [hc]; omega)
      refine ⟨s', rest, .cons hstep h1, ?_, ?_⟩
      · rw [h2, ← ht]
        simp [listenersOf]
      · rw [h3, ← ht]
        rfl

/-- A session over UDP up to the answer to DESCRIBE: a SETUP request was sent for every stream. -/
theorem described_ok (w : World) (hw : ∀ o b, w.write o b = .ok) (uri : Bytes) (user : Option (Bytes × Bytes))
    (proto : Proto) (hproto : proto = .unicast ∨ proto = .multicast) (rsp1 rsp2 : Response) (h1 : rsp1.cseq = 1 ∧ rsp1.statusCode ≠ 401)
    (body : Bytes) (h2 : rsp2.cseq = 2 ∧ rsp2.statusCode ≠ 401 ∧ rsp2.body = some body) (ms : List Media) (hms : sdpParse body = .ok ms) :
    ∃ v, Runs w newSession [.open_ uri proto user, .item (.response rsp1), .item (.response rsp2)] v ∧ v.feeds = numberFrom 2 (feedsFrom proto 0 ms) ∧ v.feedidx = 0 ∧
      (∀ i, i < ms.length → ∃ q, v.find (((2 : Nat) : Int) + 1 + i) = some q ∧ q.verb = b!"SETUP") ∧ v.sinks = [] ∧ v.stage = 0 ∧ readies v.out = 0 := by
  have hph : proto ≠ .http := by rcases hproto with rfl | rfl <;> decide
  -- OPTIONS
  obtain ⟨t1, ht1⟩ := command_ok hw (s := { newSession with opened := true, baseURI := uri, proto := proto, user := user }) rfl hph verbOptions uri []
  have e1 : step w newSession (.open_ uri proto user) = .ok (t1, none) := ht1
  rcases command_out ht1 with ⟨h, _⟩ | ⟨_, _, a, x, res, rfl, _⟩
  · cases h
  -- DESCRIBE
  generalize hq1 : (⟨verbOptions, _, uri, a, _, _⟩ : Request) = q1 at *
  have hq1c : q1.cseq = 1 := by rw [← hq1]; rfl
  have hq1v : q1.verb = verbOptions := by rw [← hq1]
  generalize ht : ({ newSession with opened := true, baseURI := uri, proto := proto, user := user, auth := x, cseq := newSession.cseq + 1, queue := insertReq newSession.queue q1, out := .sent false q1 res :: newSession.out } : Sess) = t at *
  have hu1 : ({ t with queue := t.queue.filter (fun e => e.1 ≠ rsp1.cseq), session := learned t.session (rsp1.header.get b!"Session"), out := .got rsp1 :: t.out, verbs := t.verbs ++ split2 44 32 (rsp1.header.get b!"Public") } : Sess).opened = true := by rw [← ht]
  have hu2 : ({ t with queue := t.queue.filter (fun e => e.1 ≠ rsp1.cseq), session := learned t.session (rsp1.header.get b!"Session"), out := .got rsp1 :: t.out, verbs := t.verbs ++ split2 44 32 (rsp1.header.get b!"Public") } : Sess).proto ≠ .http := by rw [← ht]; exact hph
  obtain ⟨t2, ht2⟩ := command_ok hw hu1 hu2 verbDescribe t.baseURI [(b!"Accept", b!"application/sdp")]
  have e2 : step w t (.item (.response rsp1)) = .ok (t2, none) := by
    show handleRtsp w { t with out := .got rsp1 :: t.out } rsp1 = _
    unfold handleRtsp
    rw [show ({ t with out := .got rsp1 :: t.out } : Sess).find rsp1.cseq = some q1 by
      rw [h1.1, ← ht]; exact (find_insert [] q1 1).trans (if_pos hq1c)]
    dsimp only
    rw [if_neg h1.2, learnSession_eq]
    unfold answer
    rw [if_pos hq1v, if_pos (by rw [← ht]; rfl)]
    exact (deref_open hu1).trans ht2
  rcases command_out ht2 with ⟨h, _⟩ | ⟨_, _, a2, x2, res2, rfl, _⟩
  · rw [hu1] at h; cases h
  dsimp only at e2
  generalize hq2 : (⟨verbDescribe, _, t.baseURI, a2, _, _⟩ : Request) = q2 at *
  have hq2c : q2.cseq = 2 := by rw [← hq2, ← ht]; rfl
  have hq2v : q2.verb = b!"DESCRIBE" := by rw [← hq2]; rfl
  generalize hu : ({ t with auth := x2, cseq := t.cseq + 1, session := learned t.session (rsp1.header.get b!"Session"), verbs := t.verbs ++ split2 44 32 (rsp1.header.get b!"Public"), queue := insertReq (t.queue.filter (fun e => e.1 ≠ rsp1.cseq)) q2, out := .sent false q2 res2 :: .got rsp1 :: t.out } : Sess) = u at *
  -- SETUP
  have hf : parseFeeds u.proto body = .ok (feedsFrom proto 0 ms) := by
    unfold parseFeeds; rw [hms, ← hu, ← ht]; rfl
  obtain ⟨v, k1, k2, k3, k4, k5, k6, k7⟩ := setupLoop_ok hw (feedsFrom proto 0 ms) []
    { u with queue := u.queue.filter (fun e => e.1 ≠ rsp2.cseq), session := learned u.session (rsp2.header.get b!"Session"), out := .got rsp2 :: u.out, feeds := feedsFrom proto 0 ms }
    (by rw [← hu, ← ht]) (by rw [← hu, ← ht]; exact hph) rfl
  have e3 : step w u (.item (.response rsp2)) = .ok (v, none) := by
    show handleRtsp w { u with out := .got rsp2 :: u.out } rsp2 = _
    unfold handleRtsp
    rw [show ({ u with out := .got rsp2 :: u.out } : Sess).find rsp2.cseq = some q2 by
      rw [h2.1, ← hu]; exact (find_insert _ q2 2).trans (if_pos hq2c)]
    dsimp only
    rw [if_neg h2.2.1, learnSession_eq]
    unfold answer
    rw [hq2v, if_neg (by decide), if_pos (by decide), h2.2.2]
    dsimp only [Sess.remove]
    rw [hf]
    exact k1
  have huc : u.cseq = 2 := by rw [← hu, ← ht]; rfl
  have hflen : ∀ (n : Nat) (ms : List Media), (feedsFrom proto n ms).length = ms.length := by
    intro n ms
    induction ms generalizing n with
    | nil => rfl
    | cons m ms ih => show (feedsFrom proto (n + 1) ms).length + 1 = _; rw [ih]; rfl
  dsimp only at k2 k3 k7
  rw [huc] at k2 k7
  have hsinks : v.sinks = [] ∧ v.stage = 0 := by
    have : ∀ (fs done : List Feed) (s s' : Sess) (e : Option SErr), setupLoop w done fs s = .ok (s', e) → s'.sinks = s.sinks ∧ s'.stage = s.stage := by
      intro fs
      induction fs with
      | nil => intro done s s' e h; injection h with h; injection h with h _; rw [h]; exact ⟨rfl, rfl⟩
      | cons f fs ih =>
        intro done s s' e h
        unfold setupLoop at h
        cases hc : command w s verbSetup (setupURI s.baseURI f.media.control) [(b!"Transport", f.transportHeader)] with
        | error p => rw [hc] at h; cases h
        | ok r =>
          obtain ⟨t, y⟩ := r
          have h1 : t.sinks = s.sinks ∧ t.stage = s.stage := by rcases command_out hc with ⟨_, rfl, _⟩ | ⟨_, _, a, x, res, rfl, _⟩ <;> exact ⟨rfl, rfl⟩
          rw [hc] at h
          cases y with
          | some y => injection h with h; injection h with h _; subst h; exact h1
          | none => obtain ⟨g1, g2⟩ := ih _ _ _ _ h; exact ⟨g1.trans h1.1, g2.trans h1.2⟩
    obtain ⟨g1, g2⟩ := this _ _ _ _ _ k1
    rw [g1, g2, ← hu, ← ht]
    exact ⟨rfl, rfl⟩
  refine ⟨v, .cons e1 (.cons e2 (.cons e3 (.nil _))), by rw [k2]; rfl, by rw [k3, ← hu, ← ht]; rfl, ?_, hsinks.1, hsinks.2, by rw [k5, ← hu, ← ht]; rfl⟩
  intro i hi
  obtain ⟨q, h1, h2⟩ := k7 i (by rw [hflen]; exact hi)
  exact ⟨q, by rw [← h1], h2⟩

theorem runs_append {w : World} {s t u : Sess} {xs ys : List Op} (h1 : Runs w s xs t) (h2 : Runs w t ys u) : Runs w s (xs ++ ys) u := by
  induction h1 with
  | nil _ => exact h2
  | cons hs _ ih => exact .cons hs (ih h2)

/-- C78, exactly: in every session over UDP that goes as it should (OPTIONS and DESCRIBE are answered, and every SETUP is granted in turn, with any
Transport header of the grammar) reading starts with two listeners for each stream. The ports are those of the header's `port` parameter, or without
one those asked for if the transport is multicast and 0 (any port) if it is unicast; the channels are `2 (i + 1)` and `2 (i + 1) + 1` for the `i`-th stream,
counted from 0. Required: writing works, listening works on these ports, and the parameter sets in the description can be parsed. -/
theorem C78_exact (w : World) (hw : ∀ o b, w.write o b = .ok) (uri : Bytes) (user : Option (Bytes × Bytes))
    (proto : Proto) (hproto : proto = .unicast ∨ proto = .multicast) (rsp1 rsp2 : Response) (h1 : rsp1.cseq = 1 ∧ rsp1.statusCode ≠ 401)
    (body : Bytes) (h2 : rsp2.cseq = 2 ∧ rsp2.statusCode ≠ 401 ∧ rsp2.body = some body) (ms : List Media) (hms : sdpParse body = .ok ms)
    (hsp : ∀ m ∈ ms, ∃ x, spropLoop w.inf newParameterSets m.spropParameterSets = .ok (x, none))
    (gs : List Grant) (hgs : gs.length = ms.length) (hne : gs ≠ []) (hbig : ms.length < 2 ^ 60) (hwf : ∀ g ∈ gs, g.WF) (ops : List Op) (hall : GrantAll 2 gs ops)
    (hl : ∀ x ∈ listenersOf proto 0 gs, ∀ o k, w.listen o k x.2 = .ok) :
    ∃ s rest, Runs w newSession ([.open_ uri proto user, .item (.response rsp1), .item (.response rsp2)] ++ ops) s ∧
      s.out = .started (listenersOf proto 0 gs) :: .notified 1 :: rest ∧ readies rest = 0 := by
  obtain ⟨v, k1, k2, k3, k4, k5, _, k6⟩ := described_ok w hw uri user proto hproto rsp1 rsp2 h1 body h2 ms hms
  obtain ⟨s', rest, r1, r2, r3⟩ := grants_run proto hproto 2 gs 0 ops [] ms v hl hall hwf hgs (by omega) hne hsp (by rw [k2]; rfl) rfl (fun f hf => by (cases hf)) k3 k4
  rw [k5] at r2
  exact ⟨s', rest, runs_append k1 r1, r2, r3.trans k6⟩

theorem listenersOf_length (proto : Proto) (gs : List Grant) : ∀ j, (listenersOf proto j gs).length = 2 * gs.length := by
  induction gs with
  | nil => intro j; rfl
  | cons g gs ih => intro j; simp only [listenersOf, List.length_cons, ih]; omega

theorem listenersOf_ports (proto : Proto) (gs : List Grant) : ∀ j,
    (∀ (i : Nat) (g : Grant), gs[i]? = some g → (portGiven g.items).getD (if proto = .multicast then portsAsked (j + i) else ⟨0, 0⟩) = portsAsked (j + i)) →
    (listenersOf proto j gs).map (·.2) = (List.range gs.length).flatMap fun i => [(portsAsked (j + i)).one, (portsAsked (j + i)).two] := by
  induction gs with
  | nil => intro j _; rfl
  | cons g gs ih =>
    intro j h
    have h0 := h 0 g rfl
    rw [Nat.add_zero] at h0
    simp only [listenersOf, List.map_cons, List.length_cons, List.range_succ_eq_map, List.flatMap_cons, List.flatMap_map, Nat.add_zero, List.cons_append, List.nil_append, h0]
    rw [ih (j + 1) (fun i g hg => by have := h (i + 1) g (by simpa using hg); rw [show j + 1 + i = j + (i + 1) by omega]; exact this)]
    simp only [Nat.succ_eq_add_one, Nat.add_assoc, Nat.add_comm 1]

/-- C78, ports of multicast: if the server names the ports the client asked for, or none, the listeners are on the ports asked for. The channels are
not those the user relies on: see `C78_channels_refuted`. -/
theorem C78_multicast_partial (gs : List Grant) (h : ∀ (i : Nat) (g : Grant), gs[i]? = some g → portGiven g.items = none ∨ portGiven g.items = some (portsAsked i)) :
    (listenersOf .multicast 0 gs).map (·.2) = (listenersWanted gs.length).map (·.2) := by
  rw [listenersOf_ports .multicast gs 0 (fun i g hg => by
    rw [Nat.zero_add]
    rcases h i g hg with e | e <;> rw [e] <;> rfl)]
  unfold listenersWanted
  rw [List.map_flatMap]
  simp only [Nat.zero_add, List.map_cons, List.map_nil]

/-- C78 fails for every UDP session that is granted: the first listener reports its packets on channel 2, not on the first channel. -/
theorem C78_channels_refuted (proto : Proto) (gs : List Grant) (hne : gs ≠ []) :
    (listenersOf proto 0 gs).map (·.1) ≠ (listenersWanted gs.length).map (·.1) := by
  intro e
  have := congrArg (fun l => l.headD 0) e
  cases gs with
  | nil => exact hne rfl
  | cons g gs =>
    have h2 : ((listenersWanted (g :: gs).length).map (·.1)).headD 0 = 0 := by
      unfold listenersWanted
      rw [List.length_cons, List.range_succ_eq_map]
      rfl
    have h1 : ((listenersOf proto 0 (g :: gs)).map (·.1)).headD 0 = 2 := rfl
    rw [show _ = _ from this.symm.trans h1] at h2
    exact absurd h2 (by decide)

/-- C78 fails for every unicast session whose server uses no `port` parameter (`port` is for multicast, RFC 2326 12.39): every listener is on port 0, so on
some free port the server knows nothing of, whatever client_port it confirmed. -/
theorem C78_unicast_refuted (gs : List Grant) (h : ∀ g ∈ gs, portGiven g.items = none) : ∀ j, ∀ x ∈ listenersOf .unicast j gs, x.2 = 0 := by
  induction gs with
  | nil => intro j x hx; cases hx
  | cons g gs ih =>
    intro j x hx
    unfold listenersOf at hx
    rw [h g (by simp)] at hx
    rcases List.mem_cons.1 hx with rfl | hx
    · rfl
    · rcases List.mem_cons.1 hx with rfl | hx
      · rfl
      · exact ih (fun g hg => h g (by simp [hg])) (j + 1) x hx

/-- Two streams over unicast UDP, granted with the ports the client asked for: the hypotheses of `C78_exact` are met. -/
def demoGrants : List Grant := [⟨.unspecified, [⟨b!"unicast", .unicast⟩, ⟨b!"client_port", .clientPort ⟨50000, some 50001⟩⟩]⟩,
  ⟨.udp, [⟨b!"unicast", .unicast⟩, ⟨b!"client_port", .clientPort ⟨50002, some 50003⟩⟩]⟩]

def demoGranted : List Op := [demoGot 3 200 [(b!"Transport", b!"RTP/AVP;unicast;client_port=50000-50001")] none,
  demoGot 4 200 [(b!"Transport", b!"RTP/AVP/UDP;unicast;client_port=50002-50003")] none]

example : GrantAll 2 demoGrants demoGranted ∧ (∀ g ∈ demoGrants, g.WF) ∧ (∀ g ∈ demoGrants, portGiven g.items = none) ∧
    (∃ ms, sdpParse demoSdp = .ok ms ∧ demoGrants.length = ms.length ∧ ∀ m ∈ ms, ∃ x, spropLoop demoWorld.inf newParameterSets m.spropParameterSets = .ok (x, none)) ∧
    (∀ o b, demoWorld.write o b = .ok) ∧ (∀ o k p, demoWorld.listen o k p = .ok) := by
  refine ⟨.cons _ ⟨rfl, rfl, by decide⟩ (.cons _ ⟨rfl, rfl, by decide⟩ (.nil _)), ?_, ?_, ⟨_, rfl, rfl, ?_⟩, fun _ _ => rfl, fun _ _ _ => rfl⟩
  · intro g hg
    simp only [demoGrants, List.mem_cons, List.not_mem_nil, or_false] at hg
    rcases hg with rfl | rfl <;> refine ⟨fun h => by (cases h), fun i hi => ?_⟩ <;>
      (simp only [List.mem_cons, List.not_mem_nil, or_false] at hi; rcases hi with rfl | rfl <;> refine ⟨by decide, ?_⟩) <;> simp [TParam.WF, Range.WF, IntFits]
  · intro g hg
    simp only [demoGrants, List.mem_cons, List.not_mem_nil, or_false] at hg
    rcases hg with rfl | rfl <;> rfl
  · intro m hm
    rcases List.mem_cons.1 hm with rfl | hm
    · exact ⟨_, rfl⟩
    · rcases List.mem_cons.1 hm with rfl | hm
      · exact ⟨_, rfl⟩
      · cases hm

/-- C78 fails in a run of a session: two streams, granted with the ports asked for, are listened for on port 0 and reported on channels 2 to 5. -/
theorem C78_run_refuted : ∃ s, run demoWorld newSession ([.open_ b!"rtsp://h/x" .unicast none, demoGot 1 200 [] none, demoGot 2 200 [] (some demoSdp)] ++ demoGranted) = .ok s ∧
    s.out.head? = some (.started [(2, 0), (3, 0), (4, 0), (5, 0)]) := ⟨_, rfl, rfl⟩

end Ouro
