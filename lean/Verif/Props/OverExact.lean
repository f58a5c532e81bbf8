import Verif.Props.Over
import Verif.Lemmas.SetupAll
/-! # C122, exactly: which sessions stay over -/
namespace Ouro
open Spec

/-- Until the user calls again, nothing is sent and nothing reported, whatever the server sends and however often the time for a keep-alive comes. -/
def StaysSilent (w : World) (s : Sess) : Prop :=
  ∀ ops, (∀ op ∈ ops, ByItself op) → ∀ s', run w s ops = .ok s' → ∃ new, s'.out = new ++ s.out ∧ ∀ o ∈ new, Incoming o

theorem silent_two {w : World} {s t : Sess} (h : StaysSilent w s) {rsp : Response} {e : Option SErr} {x : Out}
    (hs : step w s (.item (.response rsp)) = .ok (t, e)) (ho : t.out = x :: .got rsp :: s.out) : Incoming x := by
  obtain ⟨new, h1, h2⟩ := h [.item (.response rsp)] (fun op hop => by rw [List.mem_singleton.1 hop]; trivial) t (by unfold run; rw [hs]; rfl)
  rw [ho, show x :: .got rsp :: s.out = [x, .got rsp] ++ s.out from rfl] at h1
  have := List.append_cancel_right h1
  exact h2 x (by rw [← this]; simp)

/-- OPTIONS that are unanswered do no harm without credentials. -/
theorem silent_options (w : World) (ops : List Op) : (∀ op ∈ ops, ByItself op) → ∀ (s s' : Sess), (∀ c req, s.find c = some req → req.verb = b!"OPTIONS" ∧ s.user = none) →
    s.stage = 4 → run w s ops = .ok s' → ∃ new, s'.out = new ++ s.out ∧ ∀ o ∈ new, Incoming o := by
  induction ops with
  | nil => intro _ s s' _ _ hr; injection hr with hr; subst hr; exact ⟨[], rfl, fun o h => by (cases h)⟩
  | cons op ops ih =>
    intro hops s s' hf hst hr
    unfold run at hr
    have hop := hops op (List.mem_cons_self ..)
    have one : ∀ t e, step w s op = .ok (t, e) → (∀ c req, t.find c = some req → req.verb = b!"OPTIONS" ∧ t.user = none) ∧ t.stage = 4 ∧
        ∃ new, t.out = new ++ s.out ∧ ∀ o ∈ new, Incoming o := by
      intro t e ht
      cases op with
      | keepAlive due =>
        have ht : s.keepAlive w due = .ok (t, e) := ht
        have ht := deref_ok ht
        rw [if_neg (by rw [hst]; rintro ⟨_, _, _, h, _⟩; exact absurd h (by decide))] at ht
        injection ht with ht; injection ht with ht _; subst ht
        exact ⟨hf, hst, [], rfl, fun o h => by (cases h)⟩
      | item i =>
        cases i with
        | frame ch p =>
          injection ht with ht; injection ht with ht _; subst ht
          exact ⟨hf, hst, [.data ch p], rfl, fun o h => by rw [List.mem_singleton] at h; subst h; trivial⟩
        | response rsp =>
          have inc : ∀ o ∈ [Out.got rsp], Incoming o := fun o h => by rw [List.mem_singleton] at h; subst h; trivial
          have ht : handleRtsp w { s with out := .got rsp :: s.out } rsp = .ok (t, e) := ht
          unfold handleRtsp at ht
          cases hq : s.find rsp.cseq with
          | none =>
            rw [show ({ s with out := .got rsp :: s.out } : Sess).find rsp.cseq = none from hq] at ht
            injection ht with ht; injection ht with ht _; subst ht
            exact ⟨hf, hst, [.got rsp], rfl, inc⟩
          | some req =>
            rw [show ({ s with out := .got rsp :: s.out } : Sess).find rsp.cseq = some req from hq] at ht
            dsimp only at ht
            obtain ⟨hv, hu⟩ := hf _ _ hq
            have left : ∀ t : Sess, t.queue = s.queue.filter (fun e => e.1 ≠ rsp.cseq) → t.user = none → ∀ c req, t.find c = some req → req.verb = b!"OPTIONS" ∧ t.user = none := by
              intro t hq hu c req hc
              rw [find_of_queue hq, find_filter] at hc
              split at hc
              · cases hc
              · exact ⟨(hf c req hc).1, hu⟩
            by_cases h401 : rsp.statusCode = 401
            · rw [if_pos h401] at ht
              unfold retry authorize at ht
              dsimp only [Sess.remove] at ht
              rw [hu] at ht
              cases hd : newDigest s.baseURI (rsp.header.get b!"WWW-Authenticate") with
              | error x => rw [hd] at ht; injection ht with ht; injection ht with ht _; subst ht; exact ⟨left _ rfl rfl, hst, [.got rsp], rfl, inc⟩
              | ok d => rw [hd] at ht; injection ht with ht; injection ht with ht _; subst ht; exact ⟨left _ rfl rfl, hst, [.got rsp], rfl, inc⟩
            · rw [if_neg h401, learnSession_eq] at ht
              unfold answer at ht
              rw [hv, if_pos (by decide), if_neg (by show ¬ s.stage = stageInit; rw [hst]; decide)] at ht
              injection ht with ht; injection ht with ht _; subst ht
              exact ⟨left _ rfl hu, hst, [.got rsp], rfl, inc⟩
      | _ => exact hop.elim
    cases hs : step w s op with
    | error p => rw [hs] at hr; cases hr
    | ok x =>
      obtain ⟨t, e⟩ := x
      rw [hs] at hr
      obtain ⟨h1, h2, n1, e1, k1⟩ := one t e hs
      obtain ⟨n2, e2, k2⟩ := ih (fun o ho => hops o (List.mem_cons_of_mem _ ho)) t s' h1 h2 hr
      refine ⟨n2 ++ n1, by rw [e2, e1, List.append_assoc], fun o ho => ?_⟩
      rcases List.mem_append.1 ho with ho | ho
      · exact k2 o ho
      · exact k1 o ho

/-- A 401 with a challenge that can be answered makes a session with credentials write. -/
theorem refused_writes {w : World} (hw : ∀ o b, w.write o b = .ok) {s : Sess} {rsp : Response} {req : Request} {up : Bytes × Bytes} {d : Digest} (hf : s.find rsp.cseq = some req)
    (hu : s.user = some up) (hp : s.proto ≠ .http) (h401 : rsp.statusCode = 401) (hd : newDigest s.baseURI (rsp.header.get b!"WWW-Authenticate") = .ok d) :
    ∃ t again, step w s (.item (.response rsp)) = .ok (t, none) ∧ t.out = .sent true again .ok :: .got rsp :: s.out := by
  obtain ⟨u, p⟩ := up
  obtain ⟨⟨f, d1⟩, h1⟩ := authenticate_ok w.md5 (w.rnd (.got rsp :: s.out)) d u p
  obtain ⟨⟨a, d2⟩, h2⟩ := authCall_ok w.md5 f d1 req.verb []
  show ∃ t again, handleRtsp w { s with out := .got rsp :: s.out } rsp = _ ∧ _
  unfold handleRtsp
  rw [show ({ s with out := .got rsp :: s.out } : Sess).find rsp.cseq = some req from hf]
  dsimp only
  rw [if_pos h401]
  unfold retry authorize
  dsimp only [Sess.remove]
  rw [hd, hu]
  dsimp only
  rw [h1]
  dsimp only [pure, Except.pure]
  unfold callAuth
  dsimp only
  rw [h2]
  dsimp only [enqueue, pure, Except.pure]
  unfold writeReq
  dsimp only
  rw [if_neg hp, hw]
  exact ⟨_, _, rfl, rfl⟩

/-- A 200 to a DESCRIBE, with a description of one stream, makes the session ask for the stream. -/
theorem described_writes {w : World} (hw : ∀ o b, w.write o b = .ok) {s : Sess} {c : Int} {req : Request} (hf : s.find c = some req) (hv : req.verb = b!"DESCRIBE")
    (ho : s.opened = true) (hp : s.proto ≠ .http) :
    ∃ rsp t again res, step w s (.item (.response rsp)) = .ok (t, none) ∧ t.out = .sent false again res :: .got rsp :: s.out := by
  obtain ⟨f, hfeed⟩ : ∃ f, parseFeeds s.proto b!"m=video 0 RTP/AVP 96\r\n" = .ok [f] := by cases s.proto <;> exact ⟨_, rfl⟩
  obtain ⟨rsp, h1, h2, h3, h4⟩ : ∃ rsp : Response, rsp.cseq = c ∧ rsp.statusCode = 200 ∧ rsp.body = some b!"m=video 0 RTP/AVP 96\r\n" ∧ rsp.header = [] :=
    ⟨⟨b!"RTSP/1.0", [], 200, 0, c, [], some b!"m=video 0 RTP/AVP 96\r\n"⟩, rfl, rfl, rfl, rfl⟩
  refine ⟨rsp, ?_⟩
  show ∃ t again res, handleRtsp w { s with out := .got rsp :: s.out } rsp = _ ∧ _
  unfold handleRtsp
  rw [show ({ s with out := .got rsp :: s.out } : Sess).find rsp.cseq = some req by rw [h1]; exact hf]
  dsimp only
  rw [if_neg (by rw [h2]; decide), learnSession_eq]
  dsimp only [Sess.remove]
  unfold answer
  rw [hv, if_neg (by decide), if_pos (by decide), h3]
  dsimp only
  rw [hfeed]
  dsimp only [Sess.setup]
  unfold setupLoop
  dsimp only
  generalize hs1 : ({ s with queue := _, session := _, feeds := _, out := _ } : Sess) = s1
  have e1 : s1.opened = true := by rw [← hs1]; exact ho
  have e2 : s1.proto ≠ .http := by rw [← hs1]; exact hp
  have e3 : s1.out = .got rsp :: s.out := by rw [← hs1]
  obtain ⟨t, ht⟩ := command_ok hw e1 e2 verbSetup (setupURI s.baseURI f.media.control) [(b!"Transport", f.transportHeader)]
  rw [ht]
  dsimp only
  unfold setupLoop
  obtain ⟨q, res, hq⟩ : ∃ q res, t.out = .sent false q res :: .got rsp :: s.out := by
    rcases command_out ht with ⟨h, _⟩ | ⟨_, _, a, x, res, rfl, _⟩
    · rw [e1] at h; cases h
    · exact ⟨_, res, by rw [← e3]⟩
  exact ⟨_, q, res, rfl, hq⟩

/-- A 200 to a PLAY, PAUSE or TEARDOWN is reported. -/
theorem granted_reports {w : World} {s : Sess} {c : Int} {req : Request} (hf : s.find c = some req) (hv : req.verb = b!"PLAY" ∨ req.verb = b!"PAUSE" ∨ req.verb = b!"TEARDOWN") :
    ∃ rsp t k, step w s (.item (.response rsp)) = .ok (t, none) ∧ t.out = .notified k :: .got rsp :: s.out := by
  obtain ⟨rsp, h1, h2⟩ : ∃ rsp : Response, rsp.cseq = c ∧ rsp.statusCode = 200 := ⟨⟨b!"RTSP/1.0", [], 200, 0, c, [], none⟩, rfl, rfl⟩
  refine ⟨rsp, ?_⟩
  show ∃ t k, handleRtsp w { s with out := .got rsp :: s.out } rsp = _ ∧ _
  unfold handleRtsp
  rw [show ({ s with out := .got rsp :: s.out } : Sess).find rsp.cseq = some req by rw [h1]; exact hf]
  dsimp only
  rw [if_neg (by rw [h2]; decide), learnSession_eq]
  dsimp only [Sess.remove]
  unfold answer
  rcases hv with hv | hv | hv
  · rw [hv, if_neg (by decide), if_neg (by decide), if_neg (by decide), if_pos (by decide), if_pos h2]
    exact ⟨_, _, rfl, rfl⟩
  · rw [hv, if_neg (by decide), if_neg (by decide), if_pos (by decide), if_pos h2]
    exact ⟨_, _, rfl, rfl⟩
  · rw [hv, if_neg (by decide), if_neg (by decide), if_neg (by decide), if_neg (by decide), if_pos (by decide), if_pos h2]
    exact ⟨_, _, rfl, rfl⟩

/-- **C122**, exactly: a session that has reported Done and has no SETUP unanswered stays silent until the user calls again if and only if every request that is
unanswered is an OPTIONS and, unless none is, the address has no credentials. -/
theorem C122_iff (w : World) (hw : ∀ o b, w.write o b = .ok) (s : Sess) (h : Reachable w s) (hd : stageNow s.out = 4) (ho : s.opened = true) (hp : s.proto ≠ .http)
    (hset : ∀ c req, pending c s.out = some req → req.verb ≠ b!"SETUP") :
    StaysSilent w s ↔ ∀ c req, pending c s.out = some req → req.verb = b!"OPTIONS" ∧ s.user = none := by
  have inv := inv_reachable h
  have hst : s.stage = 4 := (stageOk_reachable h).trans hd
  constructor
  · intro hs c req hpend
    have hf : s.find c = some req := by rw [inv.find]; exact hpend
    constructor
    · have bad : ∀ {rsp t e x}, step w s (.item (.response rsp)) = .ok (t, e) → t.out = x :: .got rsp :: s.out → Incoming x := fun h1 h2 => silent_two hs h1 h2
      cases (inv.range c req hpend).2.2.1 with
      | options hv _ => exact hv
      | keepAlive hv _ => exact hv
      | describe hv _ =>
        obtain ⟨rsp, t, again, res, h1, h2⟩ := described_writes hw hf hv ho hp
        exact (bad h1 h2).elim
      | setup hv _ => exact absurd hv (hset c req hpend)
      | other hv _ =>
        obtain ⟨rsp, t, k, h1, h2⟩ := granted_reports (w := w) hf hv
        exact (bad h1 h2).elim
    · cases hu : s.user with
      | none => rfl
      | some up =>
        obtain ⟨d, hdg⟩ : ∃ d, newDigest s.baseURI b!"Basic realm=\"r\"" = .ok d := ⟨_, rfl⟩
        obtain ⟨rsp, h1, h2, h3⟩ : ∃ rsp : Response, rsp.cseq = c ∧ rsp.statusCode = 401 ∧ rsp.header.get b!"WWW-Authenticate" = b!"Basic realm=\"r\"" :=
          ⟨⟨b!"RTSP/1.0", [], 401, 0, c, [(b!"Www-Authenticate", b!"Basic realm=\"r\"")], none⟩, rfl, rfl, by show Header.get [(b!"Www-Authenticate", b!"Basic realm=\"r\"")] _ = _; decide⟩
        obtain ⟨t, again, h4, h5⟩ := refused_writes hw (rsp := rsp) (req := req) (d := d) (by rw [h1]; exact hf) hu hp h2 (by rw [h3]; exact hdg)
        exact (silent_two hs h4 h5).elim
  · intro hall ops hops s' hr
    exact silent_options w ops hops s s' (fun c req hc => hall c req (by rw [← inv.find]; exact hc)) hst hr

/-- Without credentials, TEARDOWN is granted before an OPTIONS of the user: Done is reported, the OPTIONS is unanswered, and no SETUP is. -/
example : ∃ s, run demoWorld newSession [.open_ b!"rtsp://h/x" .tcp none, demoGot 1 200 [] none, .options, .teardown, demoGot 4 200 [] none, demoGot 2 404 [] none] = .ok s ∧
    stageNow s.out = 4 ∧ s.opened = true ∧ s.proto ≠ .http ∧ s.queue.map (fun e => (e.1, e.2.verb)) = [(3, b!"OPTIONS")] ∧ s.user = none :=
  ⟨_, rfl, by decide +kernel, rfl, by decide, by decide +kernel, rfl⟩

end Ouro
