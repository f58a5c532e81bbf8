import Verif.Spec.Commands
import Verif.Props.Setup
import Verif.Props.Transport
import Verif.Props.Sdp
/-! # C72, C77, C80: refused commands, SETUP requests, keep-alive -/
namespace Ouro
open Spec

/-! ## C72 -/

/-- C72, what holds: a PLAY, PAUSE or TEARDOWN that the server refuses is not reported as granted: the user is told nothing, and the stage stays. -/
theorem C72_not_granted_partial (w : World) (s s' : Sess) (h : Reachable w s) (rsp : Response) (req : Request) (e : Option SErr)
    (hp : pending rsp.cseq s.out = some req) (hv : IsCommand req.verb) (hc : rsp.statusCode ≠ 200) (hc' : rsp.statusCode ≠ 401)
    (hs : step w s (.item (.response rsp)) = .ok (s', e)) : toldUser s'.out = toldUser s.out ∧ s'.stage = s.stage ∧ pending rsp.cseq s'.out = none := by
  have hf : s.find rsp.cseq = some req := by rw [(inv_reachable h).find]; exact hp
  have hs : handleRtsp w { s with out := .got rsp :: s.out } rsp = .ok (s', e) := hs
  unfold handleRtsp at hs
  rw [show ({ s with out := .got rsp :: s.out } : Sess).find rsp.cseq = some req from hf] at hs
  dsimp only at hs
  rw [if_neg hc', learnSession_eq] at hs
  unfold answer at hs
  have he : s' = { s with queue := s.queue.filter (fun e => e.1 ≠ rsp.cseq), session := learned s.session (rsp.header.get b!"Session"), out := .got rsp :: s.out } := by
    rcases hv with hv | hv | hv
    · rw [hv, if_neg (by decide), if_neg (by decide), if_neg (by decide), if_pos (by decide), if_neg hc] at hs
      injection hs with hs; injection hs with hs _; rw [← hs]; rfl
    · rw [hv, if_neg (by decide), if_neg (by decide), if_pos (by decide), if_neg hc] at hs
      injection hs with hs; injection hs with hs _; rw [← hs]; rfl
    · rw [hv, if_neg (by decide), if_neg (by decide), if_neg (by decide), if_neg (by decide), if_pos (by decide), if_neg hc] at hs
      injection hs with hs; injection hs with hs _; rw [← hs]; rfl
  subst he
  exact ⟨rfl, rfl, if_pos rfl⟩

example : ∃ (s : Sess) (rsp : Response) (req : Request), Reachable demoWorld s ∧ pending rsp.cseq s.out = some req ∧ IsCommand req.verb ∧ rsp.statusCode ≠ 200 ∧
    rsp.statusCode ≠ 401 :=
  ⟨_, demoRsp 2 454 [] none, _, ⟨[demoOpen, .play], rfl⟩, rfl, .inl (by decide), by decide, by decide⟩

/-- C72 fails for every refused command: there is no error, and the session goes on as if there had been no response. -/
theorem C72_silent_refuted (w : World) (s : Sess) (h : Reachable w s) (rsp : Response) (req : Request)
    (hp : pending rsp.cseq s.out = some req) (hv : IsCommand req.verb) (hc : rsp.statusCode ≠ 200) (hc' : rsp.statusCode ≠ 401) :
    ∃ s', step w s (.item (.response rsp)) = .ok (s', none) ∧ s'.out = .got rsp :: s.out ∧ toldUser s'.out = toldUser s.out := by
  have hf : s.find rsp.cseq = some req := by rw [(inv_reachable h).find]; exact hp
  show ∃ s', handleRtsp w { s with out := .got rsp :: s.out } rsp = .ok (s', none) ∧ _
  unfold handleRtsp
  rw [show ({ s with out := .got rsp :: s.out } : Sess).find rsp.cseq = some req from hf]
  dsimp only
  rw [if_neg hc', learnSession_eq]
  unfold answer
  rcases hv with hv | hv | hv
  · rw [hv, if_neg (by decide), if_neg (by decide), if_neg (by decide), if_pos (by decide), if_neg hc]
    exact ⟨_, rfl, rfl, rfl⟩
  · rw [hv, if_neg (by decide), if_neg (by decide), if_pos (by decide), if_neg hc]
    exact ⟨_, rfl, rfl, rfl⟩
  · rw [hv, if_neg (by decide), if_neg (by decide), if_neg (by decide), if_neg (by decide), if_pos (by decide), if_neg hc]
    exact ⟨_, rfl, rfl, rfl⟩

/-- C72 fails for SETUP too: both are refused, and the user is told that the session is ready. -/
theorem C72_setup_refuted : ∃ s, run demoWorld newSession (demoSetup ++ [demoGot 3 404 [] none, demoGot 4 404 [] none]) = .ok s ∧ toldUser s.out = [.notified 1] :=
  ⟨_, rfl, rfl⟩

/-- C72 fails for DESCRIBE too: it is refused, and nothing is sent, told or reported as an error. -/
theorem C72_describe_refuted : ∃ s s', run demoWorld newSession [demoOpen, demoGot 1 200 [] none] = .ok s ∧
    step demoWorld s (demoGot 2 404 [] none) = .ok (s', none) ∧ sentSeqs s' = sentSeqs s ∧ toldUser s'.out = [] := ⟨_, _, rfl, rfl, by decide, rfl⟩

/-! ## C77 -/

theorem itoa_ofNat (n : Nat) : itoa (n : Int) = natDigits n := itoa_nat n

/-- The transport header of the feeds. -/
theorem asked_string (proto : Proto) (i : Nat) (hi : i < 2 ^ 60) : (newTransport proto (i64 ((i : Int) * 2))).string = askedTransport proto i := by
  have e0 : i64 ((i : Int) * 2) = ((2 * i : Nat) : Int) := by unfold i64; omega
  have e1 : i64 (((2 * i : Nat) : Int) + 1) = ((2 * i + 1 : Nat) : Int) := by unfold i64; omega
  have e2 : i64 (firstUDPPort + ((2 * i : Nat) : Int)) = ((50000 + 2 * i : Nat) : Int) := by unfold i64 firstUDPPort; omega
  have e3 : i64 (((50000 + 2 * i : Nat) : Int) + 1) = ((50000 + 2 * i + 1 : Nat) : Int) := by unfold i64; omega
  rw [e0]
  cases proto with
  | tcp =>
    unfold newTransport askedTransport Transport.string Pair.string
    dsimp only
    rw [e1, itoa_ofNat, itoa_ofNat]
    simp
  | http =>
    unfold newTransport askedTransport Transport.string Pair.string
    dsimp only
    rw [e1, itoa_ofNat, itoa_ofNat]
    simp
  | unicast =>
    unfold newTransport askedTransport Transport.string Pair.string
    dsimp only
    rw [e2, e3, itoa_ofNat, itoa_ofNat]
    have : (0 : Int) < 50000 + 2 * (i : Int) := by omega
    simp [this]
  | multicast =>
    unfold newTransport askedTransport Transport.string Pair.string
    dsimp only
    rw [e2, e3, itoa_ofNat, itoa_ofNat]
    have : (0 : Int) < 50000 + 2 * (i : Int) := by omega
    simp [this]

/-- What the loop of `Setup` sends. -/
theorem setupLoop_trace {w : World} (hw : ∀ o b, w.write o b = .ok) (fs : List Feed) : ∀ (done : List Feed) (s : Sess), s.opened = true → s.proto ≠ .http →
    ∃ (s' : Sess) (qs : List Request), setupLoop w done fs s = .ok (s', none) ∧ s'.out = (qs.map fun q => Out.sent false q .ok).reverse ++ s.out ∧ qs.length = fs.length ∧
      ∀ (i : Nat) (f : Feed) (q : Request), fs[i]? = some f → qs[i]? = some q → q.verb = b!"SETUP" ∧ q.cseq = (s.cseq : Int) + 1 + i ∧ q.uri = setupURI s.baseURI f.media.control ∧
        q.header = [(b!"Transport", f.transp.string)] ∧ q.session = s.session := by
  induction fs with
  | nil => intro done s _ _; exact ⟨s, [], rfl, rfl, rfl, fun i f q h => by (rw [List.getElem?_nil] at h; cases h)⟩
  | cons f fs ih =>
    intro done s ho hp
    obtain ⟨t, ht⟩ := command_ok hw ho hp verbSetup (setupURI s.baseURI f.media.control) [(b!"Transport", f.transportHeader)]
    unfold setupLoop
    rw [ht]
    dsimp only
    rcases command_out ht with ⟨_, _, h⟩ | ⟨_, _, a, x, res, rfl, hres⟩
    · cases h
    · have hres : res = .ok := by cases res <;> first | rfl | cases hres
      subst hres
      generalize hreq : (⟨verbSetup, (s.cseq : Int) + 1, setupURI s.baseURI f.media.control, a, s.session, _⟩ : Request) = req at *
      obtain ⟨s', qs, h1, h2, h3, h4⟩ := ih (done ++ [{ f with cseq := ((s.cseq + 1 : Nat) : Int) }])
        { s with auth := x, cseq := s.cseq + 1, queue := insertReq s.queue req, out := .sent false req .ok :: s.out, feeds := done ++ { f with cseq := ((s.cseq + 1 : Nat) : Int) } :: fs } ho hp
      refine ⟨s', req :: qs, h1, by rw [h2]; simp, by simp [h3], ?_⟩
      intro i g q hg hq
      cases i with
      | zero =>
        injection hg with hg; injection hq with hq
        subst hg; subst hq; subst hreq
        exact ⟨rfl, by dsimp only; omega, rfl, rfl, rfl⟩
      | succ i =>
        obtain ⟨k1, k2, k3, k4, k5⟩ := h4 i g q hg hq
        exact ⟨k1, by rw [k2]; dsimp only; omega, k3, k4, k5⟩

theorem getElem_of_map {α β : Type} {f : α → β} {l : List α} {m : List β} (h : l.map f = m) {i : Nat} {b : β} (hb : m[i]? = some b) :
    ∃ a, l[i]? = some a ∧ f a = b := by
  subst h
  rw [List.getElem?_map] at hb
  cases hl : l[i]? with
  | none => rw [hl] at hb; cases hb
  | some a => rw [hl] at hb; injection hb with hb; exact ⟨a, rfl, hb⟩

/-- C77, what holds: when the answer to a DESCRIBE is a description that can be parsed, exactly one SETUP is sent for each of its video sections, in
their order, numbered one after the other: for the stream of that section (the control URL that parsing the section alone gives) and with the
channels or ports of its own. The URI is the right one exactly if the control URL is not `*`. Required: writing works. -/
theorem C77_setups_partial (w : World) (hw : ∀ o b, w.write o b = .ok) (s : Sess) (hr : PlainReachable w s)
    (rsp : Response) (req : Request) (hp : pending rsp.cseq s.out = some req) (hv : req.verb = b!"DESCRIBE") (h401 : rsp.statusCode ≠ 401)
    (body : Bytes) (hb : rsp.body = some body) (hbare : ∀ line ∈ split 10 body, trimSpace line ≠ b!"m=video")
    (hlen : (videoSections (split 10 body)).length < 2 ^ 60) :
    ∃ (t : Sess) (qs : List Request), step w s (.item (.response rsp)) = .ok (t, none) ∧ t.out = (qs.map fun q => Out.sent false q .ok).reverse ++ .got rsp :: s.out ∧
      qs.length = (videoSections (split 10 body)).length ∧
      ∀ (i : Nat) (sec : List Bytes) (q : Request), (videoSections (split 10 body))[i]? = some sec → qs[i]? = some q →
        ∃ m, sdpParse (unlines sec) = .ok [m] ∧ q.verb = b!"SETUP" ∧ q.cseq = ((newSeqs s.out).length : Int) + 1 + i ∧
          (q.uri = streamURI s.baseURI m.control ↔ m.control ≠ b!"*") ∧ q.header = [(b!"Transport", askedTransport s.proto i)] := by
  have inv := inv_reachable (PlainReachable.reachable hr)
  obtain ⟨ho, hproto⟩ := plain_static hr
  have hfind : s.find rsp.cseq = some req := by rw [inv.find]; exact hp
  obtain ⟨ms, hms⟩ : ∃ ms, sdpParse body = .ok ms := by
    cases hs : sdpParse body with
    | ok ms => exact ⟨ms, rfl⟩
    | error p =>
      obtain ⟨l, hl, hb⟩ := (C37_panics_iff body).1 ⟨p, hs⟩
      exact absurd hb (hbare l hl)
  obtain ⟨hn, hsec⟩ := C35_sections body ms hms
  have hf : parseFeeds s.proto body = .ok (feedsFrom s.proto 0 ms) := by unfold parseFeeds; rw [hms]; rfl
  have hmap := ((C48_feeds s.proto body).2 ms).1
  obtain ⟨t, qs, h1, h2, h3, h4⟩ := setupLoop_trace hw (feedsFrom s.proto 0 ms) []
    { s with queue := s.queue.filter (fun e => e.1 ≠ rsp.cseq), session := learned s.session (rsp.header.get b!"Session"), out := .got rsp :: s.out, feeds := feedsFrom s.proto 0 ms } ho hproto
  have hflen : (feedsFrom s.proto 0 ms).length = ms.length := by rw [← hmap, List.length_map, hmap]
  refine ⟨t, qs, ?_, h2, by rw [h3, hflen, hn], ?_⟩
  · show handleRtsp w { s with out := .got rsp :: s.out } rsp = _
    unfold handleRtsp
    rw [show ({ s with out := .got rsp :: s.out } : Sess).find rsp.cseq = some req from hfind]
    dsimp only
    rw [if_neg h401, learnSession_eq]
    unfold answer
    rw [hv, if_neg (by decide), if_pos (by decide), hb]
    dsimp only [Sess.remove]
    rw [hf]
    exact h1
  · intro i sec q hs hq
    have hi : i < ms.length := by rw [hn]; exact (List.getElem?_eq_some_iff.1 hs).1
    have hm : ms[i]? = some ms[i] := List.getElem?_eq_getElem hi
    obtain ⟨f, hfi, hfm⟩ := getElem_of_map hmap hm
    obtain ⟨k1, k2, k3, k4, _⟩ := h4 i f q hfi hq
    refine ⟨ms[i], hsec i sec _ hs hm, k1, by rw [k2, inv.seqs], ?_, ?_⟩
    · rw [k3, hfm]
      show setupURI s.baseURI _ = _ ↔ _
      constructor
      · intro he hstar
        rw [hstar] at he
        have := congrArg List.length (show s.baseURI ++ b!"/" ++ b!"*" = s.baseURI from he)
        simp at this
      · intro hstar
        unfold setupURI streamURI
        split
        · rfl
        · rfl
    · rw [k4, (feedsFrom_get s.proto ms 0 i f hfi).2, Nat.zero_add, asked_string s.proto i (by omega)]

example : ∃ (s : Sess) (rsp : Response) (req : Request), PlainReachable demoWorld s ∧ pending rsp.cseq s.out = some req ∧ req.verb = b!"DESCRIBE" ∧
    rsp.statusCode ≠ 401 ∧ rsp.body = some demoSdp ∧ (∀ line ∈ split 10 demoSdp, trimSpace line ≠ b!"m=video") ∧ (videoSections (split 10 demoSdp)).length = 2 := by
  refine ⟨_, demoRsp 2 200 [] (some demoSdp), _, ⟨b!"rtsp://h/x", .tcp, some (b!"u", b!"p"), [], [demoGot 1 200 [] none], fun _ h => by (cases h), ?_, rfl⟩, rfl, by decide, by decide, rfl, by decide, by decide⟩
  intro op hop
  rw [List.mem_singleton] at hop
  subst hop
  trivial

/-- The URIs and transports of the SETUP requests, oldest first. -/
def setupsOf (s : Sess) : List (Bytes × Header) :=
  s.out.reverse.filterMap fun o => match o with | .sent _ req _ => if req.verb = b!"SETUP" then some (req.uri, req.header) else none | _ => none

example : ∃ s, run demoWorld newSession demoSetup = .ok s ∧ setupsOf s =
    [(b!"rtsp://h/x/v", [(b!"Transport", b!"RTP/AVP/TCP;interleaved=0-1")]), (b!"rtsp://h/x/a", [(b!"Transport", b!"RTP/AVP/TCP;interleaved=2-3")])] :=
  ⟨_, rfl, by decide⟩

/-- C77 fails for the control URL `*`: it is appended to the address. -/
theorem C77_star_refuted : ∃ s, run demoWorld newSession [demoOpen, demoGot 1 200 [] none, demoGot 2 200 [] (some b!"m=video 0 RTP/AVP 96\r\na=control:*\r\n")] = .ok s ∧
    (setupsOf s).map (·.1) = [b!"rtsp://h/x/*"] ∧ streamURI b!"rtsp://h/x" b!"*" = b!"rtsp://h/x" := ⟨_, rfl, by decide, by decide⟩

/-! ## C80 -/

theorem stageNow_sends {s s' : Sess} {verb uri : Bytes} {w : World} {hs : Header} {e : Option SErr} (h : command w s verb uri hs = .ok (s', e)) :
    s'.stage = s.stage ∧ stageNow s'.out = stageNow s.out := by
  rcases command_out h with ⟨_, rfl, _⟩ | ⟨_, _, a, x, res, rfl, _⟩
  · exact ⟨rfl, rfl⟩
  · exact ⟨rfl, rfl⟩

/-- The stage of the session is the last one reported. -/
def StageOk (s : Sess) : Prop := s.stage = stageNow s.out

theorem stageOk_command {s s' : Sess} {verb uri : Bytes} {w : World} {hs : Header} {e : Option SErr} (h : command w s verb uri hs = .ok (s', e)) (hk : StageOk s) : StageOk s' := by
  obtain ⟨h1, h2⟩ := stageNow_sends h
  exact h1.trans (hk.trans h2.symm)

theorem stageOk_setupLoop {w : World} (fs : List Feed) : ∀ {done : List Feed} {s s' : Sess} {e : Option SErr}, setupLoop w done fs s = .ok (s', e) → StageOk s → StageOk s' := by
  induction fs with
  | nil => intro done s s' e h hk; injection h with h; injection h with h _; subst h; exact hk
  | cons f fs ih =>
    intro done s s' e h hk
    unfold setupLoop at h
    cases hc : command w s verbSetup (setupURI s.baseURI f.media.control) [(b!"Transport", f.transportHeader)] with
    | error p => rw [hc] at h; cases h
    | ok r =>
      obtain ⟨t, x⟩ := r
      rw [hc] at h
      have := stageOk_command hc hk
      cases x with
      | some x => injection h with h; injection h with h _; subst h; exact this
      | none => exact ih h this

theorem stageOk_ready {s : Sess} (hk : StageOk s) : StageOk (checkReady s) := by
  unfold checkReady; split
  · rfl
  · exact hk

theorem stageOk_setup {w : World} {s s' : Sess} {rsp : Response} {e : Option SErr} (h : handleSetup w s rsp = .ok (s', e)) (hk : StageOk s) : StageOk s' := by
  unfold handleSetup at h
  split at h
  · cases ht : setupAnswer w rsp [] s.feeds s with
    | error p => rw [ht] at h; cases h
    | ok r =>
      obtain ⟨t, x⟩ := r
      have h1 := (setupAnswer_feeds _ ht rfl).1.1
      have h2 := (setupAnswer_core _ ht).2.2.2
      have hk' : StageOk t := by unfold StageOk; rw [h1, h2]; exact hk
      rw [ht] at h
      cases x with
      | some x => injection h with h; injection h with h _; subst h; exact hk'
      | none => injection h with h; injection h with h _; subst h; exact stageOk_ready hk'
  · split at h
    · injection h with h; injection h with h _; subst h; exact stageOk_ready (s := { s with feedidx := s.feedidx + 1 }) hk
    · injection h with h; injection h with h _; subst h; exact stageOk_ready hk

theorem stageOk_answer {w : World} {s s' : Sess} {verb : Bytes} {rsp : Response} {e : Option SErr} (h : answer w s verb rsp = .ok (s', e)) (hk : StageOk s) : StageOk s' := by
  unfold answer at h
  split at h
  · split at h
    · exact stageOk_command (deref_ok h) hk
    · injection h with h; injection h with h _; subst h; exact hk
  · split at h
    · split at h
      · split at h
        · cases h
        · exact stageOk_setupLoop _ h hk
      · injection h with h; injection h with h _; subst h; exact hk
    · split at h
      · injection h with h; injection h with h _; subst h; split
        · rfl
        · exact hk
      · split at h
        · injection h with h; injection h with h _; subst h; split
          · rfl
          · exact hk
        · split at h
          · injection h with h; injection h with h _; subst h; split
            · rfl
            · exact hk
          · split at h
            · exact stageOk_setup h hk
            · injection h with h; injection h with h _; subst h; exact hk

theorem stageOk_step {w : World} {s s' : Sess} {op : Op} {e : Option SErr} (h : step w s op = .ok (s', e)) (hk : StageOk s) : StageOk s' := by
  cases op with
  | dial uri proto user => injection h with h; injection h with h _; subst h; exact hk
  | open_ uri proto user =>
    have h : command w { s with opened := true, baseURI := uri, proto := proto, user := user, sinks := [] } verbOptions uri [] = .ok (s', e) := h
    exact stageOk_command h hk
  | options => exact stageOk_command (deref_ok h) hk
  | describe => exact stageOk_command (deref_ok h) hk
  | setup => exact stageOk_setupLoop _ h hk
  | play => exact stageOk_command (deref_ok h) hk
  | pause => exact stageOk_command (deref_ok h) hk
  | teardown => exact stageOk_command (deref_ok h) hk
  | keepAlive due =>
    have h := deref_ok h
    split at h
    · exact stageOk_command h hk
    · injection h with h; injection h with h _; subst h; exact hk
  | item i =>
    cases i with
    | frame ch p => injection h with h; injection h with h _; subst h; exact hk
    | response rsp =>
      have h : handleRtsp w { s with out := .got rsp :: s.out } rsp = .ok (s', e) := h
      unfold handleRtsp at h
      cases hf : s.find rsp.cseq with
      | none =>
        rw [show ({ s with out := .got rsp :: s.out } : Sess).find rsp.cseq = none from hf] at h
        injection h with h; injection h with h _; subst h; exact hk
      | some req =>
        rw [show ({ s with out := .got rsp :: s.out } : Sess).find rsp.cseq = some req from hf] at h
        dsimp only at h
        split at h
        · unfold retry at h
          cases ha : authorize w (({ s with out := .got rsp :: s.out } : Sess).remove rsp.cseq) (rsp.header.get b!"WWW-Authenticate") with
          | error p => rw [ha] at h; cases h
          | ok r =>
            obtain ⟨t, x⟩ := r
            rw [ha] at h
            obtain ⟨y, rfl⟩ := authorize_core ha
            cases x with
            | some x => injection h with h; injection h with h _; subst h; exact hk
            | none =>
              dsimp only at h
              cases hc : callAuth w { (({ s with out := .got rsp :: s.out } : Sess).remove rsp.cseq) with auth := y } req.verb with
              | error p => rw [hc] at h; cases h
              | ok r =>
                obtain ⟨a, u⟩ := r
                rw [hc] at h
                obtain ⟨z, rfl⟩ := callAuth_out hc
                dsimp only at h
                obtain ⟨_, rfl, _⟩ := writeReq_out h
                exact hk
        · rw [learnSession_eq] at h
          exact stageOk_answer h hk

theorem stageOk_reachable {w : World} {s : Sess} (h : Reachable w s) : StageOk s := by
  obtain ⟨ops, h⟩ := h
  suffices key : ∀ (ops : List Op) (s s' : Sess), StageOk s → run w s ops = .ok s' → StageOk s' from key ops newSession _ rfl h
  intro ops
  induction ops with
  | nil => intro s s' hk h; injection h with h; subst h; exact hk
  | cons op ops ih =>
    intro s s' hk h
    unfold run at h
    cases hs : step w s op with
    | error p => rw [hs] at h; cases h
    | ok r => obtain ⟨t, e⟩ := r; rw [hs] at h; exact ih t s' (stageOk_step hs hk) h

/-- C80: in every history a keep-alive is sent exactly if the data comes over UDP, the session has been set up and is not done, and one is due. It is an
OPTIONS for the address of the presentation with a new number, and carries the session identifier the server assigned. Otherwise nothing happens. -/
theorem C80_exact (w : World) (s s' : Sess) (h : Reachable w s) (due : Bool) (e : Option SErr) (hs : step w s (.keepAlive due) = .ok (s', e)) (ho : s.opened = true) :
    if (s.proto = .unicast ∨ s.proto = .multicast) ∧ (stageNow s.out = 1 ∨ stageNow s.out = 2 ∨ stageNow s.out = 3) ∧ due = true then
      ∃ q res, s'.out = .sent false q res :: s.out ∧ q.verb = b!"OPTIONS" ∧ q.uri = s.baseURI ∧ q.cseq = ((newSeqs s.out).length : Int) + 1 ∧
        q.header = [(b!"Session", sessionId s.out)]
    else s' = s ∧ e = none := by
  have inv := inv_reachable h
  have hst : s.stage = stageNow s.out := stageOk_reachable h
  have hs := deref_ok hs
  have hle : stageNow s.out ≤ 4 := by
    have hp := inv.past
    clear hs hst
    revert hp
    generalize s.out = o
    induction o with
    | nil => intro _; exact Nat.zero_le _
    | cons x o ih =>
      intro hp
      cases x with
      | notified k =>
        show k ≤ 4
        by_cases hk : k = 1
        · omega
        · obtain ⟨_, _, _, _, _, _, h4⟩ := (hp.1 : Fact (.notified k) o) hk
          unfold stageAfter at h4
          split at h4
          · injection h4; omega
          · split at h4
            · injection h4; omega
            · split at h4
              · injection h4; omega
              · cases h4
      | sent => exact ih hp.2
      | got => exact ih hp.2
      | started => exact ih hp.2
      | data => exact ih hp.2
  have hiff : (s.proto ≠ .http ∧ s.proto ≠ .tcp ∧ s.stage > stageInit ∧ s.stage < stageDone ∧ due = true) ↔
      ((s.proto = .unicast ∨ s.proto = .multicast) ∧ (stageNow s.out = 1 ∨ stageNow s.out = 2 ∨ stageNow s.out = 3) ∧ due = true) := by
    rw [hst]
    unfold stageInit stageDone
    constructor
    · rintro ⟨h1, h2, h3, h4, h5⟩
      refine ⟨?_, by omega, h5⟩
      cases hp : s.proto with
      | tcp => exact absurd hp h2
      | http => exact absurd hp h1
      | unicast => exact .inl rfl
      | multicast => exact .inr rfl
    · rintro ⟨h1, h2, h3⟩
      refine ⟨?_, ?_, by omega, by omega, h3⟩
      · rcases h1 with h1 | h1 <;> rw [h1] <;> decide
      · rcases h1 with h1 | h1 <;> rw [h1] <;> decide
  by_cases hc : (s.proto = .unicast ∨ s.proto = .multicast) ∧ (stageNow s.out = 1 ∨ stageNow s.out = 2 ∨ stageNow s.out = 3) ∧ due = true
  · rw [if_pos (hiff.2 hc)] at hs
    rw [if_pos hc]
    rcases command_out hs with ⟨h1, _⟩ | ⟨_, _, a, x, res, rfl, _⟩
    · rw [ho] at h1; cases h1
    · refine ⟨_, res, rfl, rfl, rfl, ?_, ?_⟩
      · show (s.cseq : Int) + 1 = _
        rw [inv.seqs]
      · show [(canonKey b!"Session", s.session)] = _
        rw [inv.session]
        rfl
  · rw [if_neg (fun h => hc (hiff.1 h))] at hs
    rw [if_neg hc]
    injection hs with hs; injection hs with h1 h2
    exact ⟨h1.symm, h2.symm⟩

/-- A session over UDP that has been set up with the given headers in the answer. -/
def demoUdp (h : Header) : List Op :=
  [.open_ b!"rtsp://h/x" .unicast none, demoGot 1 200 [] none, demoGot 2 200 [] (some b!"m=video 0 RTP/AVP 96\r\na=control:v\r\n"), demoGot 3 200 h none]

example : ∃ s, Reachable demoWorld s ∧ s.opened = true ∧ s.proto = .unicast ∧ stageNow s.out = 1 ∧ sessionId s.out = b!"77" :=
  ⟨_, ⟨demoUdp [(b!"Session", b!"77;timeout=60"), (b!"Transport", b!"RTP/AVP;unicast")], rfl⟩, rfl, rfl, by decide, by decide⟩

/-- C80: as a server reads it, the keep-alive has exactly one Session header, with the identifier. -/
theorem C80_session (w : World) (s s' : Sess) (h : Reachable w s) (e : Option SErr) (hs : step w s (.keepAlive true) = .ok (s', e)) (ho : s.opened = true)
    (hp : s.proto = .unicast ∨ s.proto = .multicast) (hst : stageNow s.out = 1 ∨ stageNow s.out = 2 ∨ stageNow s.out = 3)
    (hu : IsWord s.baseURI) (hid : NoCR (sessionId s.out)) :
    ∃ q res, s'.out = .sent false q res :: s.out ∧ (NoCR q.auth → ∃ got, serverRead (q.pack q.header) = some got ∧
      got.headers.filter (fun e => sameName e.1 b!"Session") = [(b!"Session", sessionId s.out)]) := by
  have := C80_exact w s s' h true e hs ho
  rw [if_pos ⟨hp, hst, rfl⟩] at this
  obtain ⟨q, res, h1, h2, h3, h4, h5⟩ := this
  refine ⟨q, res, h1, fun ha => ?_⟩
  have hses : q.session = sessionId s.out := by
    have hpast := (inv_reachable (w := w) (s := s') (by
      obtain ⟨ops, hr⟩ := h
      refine ⟨ops ++ [.keepAlive true], ?_⟩
      have key : ∀ (ops : List Op) (s0 : Sess), run w s0 ops = .ok s → run w s0 (ops ++ [.keepAlive true]) = .ok s' := by
        intro ops
        induction ops with
        | nil => intro s0 h0; injection h0 with h0; subst h0; show run w s0 [.keepAlive true] = _; unfold run; rw [hs]; rfl
        | cons op ops ih =>
          intro s0 h0
          show run w s0 (op :: (ops ++ [.keepAlive true])) = _
          unfold run at h0 ⊢
          cases ht : step w s0 op with
          | error p => rw [ht] at h0; cases h0
          | ok r => obtain ⟨t, x⟩ := r; rw [ht] at h0; exact ih t h0
      exact key ops _ hr)).past
    rw [h1] at hpast
    exact (hpast.1 : Fact (.sent false q res) s.out).1
  refine ⟨_, C49_request q q.header (List.Perm.refl _) (by rw [h2]; exact ⟨by decide, by decide⟩) (by rw [h3]; exact hu) ?_ (by rw [hses]; exact hid) ha, ?_⟩
  · rw [h5]
    intro e he
    rw [List.mem_singleton] at he
    subst he
    exact ⟨show (58 : UInt8) ∉ b!"Session" by decide, show (13 : UInt8) ∉ b!"Session" by decide, hid⟩
  · dsimp only
    rw [if_neg (by rw [h2]; exact fun hc => hc.2.1 rfl), h5]
    simp only [List.filter_append]
    have e1 : ∀ x : Bytes, [(b!"CSeq", x)].filter (fun e => sameName e.1 b!"Session") = [] := fun x => by
      rw [List.filter_cons_of_neg (by simp only [decide_eq_true_eq]; exact show ¬ sameName b!"CSeq" b!"Session" by decide)]; rfl
    have e2 : ∀ x : Bytes, [(b!"Session", x)].filter (fun e => sameName e.1 b!"Session") = [(b!"Session", x)] := fun x => by
      rw [List.filter_cons_of_pos (by simp only [decide_eq_true_eq]; exact show sameName b!"Session" b!"Session" by decide)]; rfl
    have e3 : (if q.auth ≠ [] then [(b!"Authorization", q.auth)] else []).filter (fun e => sameName e.1 b!"Session") = [] := by
      split
      · rw [List.filter_cons_of_neg (by simp only [decide_eq_true_eq]; exact show ¬ sameName b!"Authorization" b!"Session" by decide)]; rfl
      · rfl
    rw [e1, e2, e3]
    rfl

/-- C80: if the server has assigned no identifier, the keep-alive has an empty Session header. -/
theorem C80_empty_refuted : ∃ s s', run demoWorld newSession (demoUdp [(b!"Transport", b!"RTP/AVP;unicast")]) = .ok s ∧ step demoWorld s (.keepAlive true) = .ok (s', none) ∧
    s'.out.head?.map (fun o => match o with | .sent _ q _ => q.pack q.header | _ => []) = some b!"OPTIONS rtsp://h/x RTSP/1.0\r\nCSeq: 4\r\nSession: \r\nUser-Agent: Ouro/1.0\r\nContent-Length: 0\r\n\r\n" :=
  ⟨_, _, rfl, rfl, by decide⟩

end Ouro
