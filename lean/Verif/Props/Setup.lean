import Verif.Lemmas.SetupAll
/-! # C59 (Ready) and C61: the setup of feeds -/
namespace Ouro
open Spec

/-! ## C59 -/

/-- C59, Ready: if the user leaves OPTIONS, DESCRIBE and SETUP to the session, then when Ready is reported no SETUP is pending, there were as many
answers as SETUP requests and at least one. -/
theorem C59_ready_partial (w : World) (s : Sess) (h : PlainReachable w s) (a b : List Out) (ho : s.out = a ++ .notified 1 :: b) :
    (∀ c req, pending c b = some req → req.verb ≠ b!"SETUP") ∧ setupsAnswered b = setupsSent b ∧ 0 < setupsSent b := by
  obtain ⟨d, hc⟩ := plain_counts h
  have hp := hc.past
  rw [ho] at hp
  exact (Past.at hp : ReadyFact (.notified 1) b) rfl

/-- A description with two feeds. -/
def demoSdp : Bytes := b!"m=video 0 RTP/AVP 96\r\na=control:v\r\nm=video 0 RTP/AVP 97\r\na=control:a\r\n"

/-- Open, OPTIONS answered, DESCRIBE answered: two SETUP requests with CSeq 3 and 4 are pending. -/
def demoSetup : List Op := [demoOpen, demoGot 1 200 [] none, demoGot 2 200 [] (some demoSdp)]

/-- The answer to a SETUP. -/
def demoOk (cseq : Int) : Op := demoGot cseq 200 [(b!"Transport", b!"RTP/AVP/TCP;unicast;interleaved=0-1")] none

example : ∃ s, PlainReachable demoWorld s ∧ ∃ b, s.out = [.started []] ++ .notified 1 :: b ∧ setupsSent b = 2 := by
  refine ⟨_, ⟨b!"rtsp://h/x", .tcp, some (b!"u", b!"p"), [], [demoGot 1 200 [] none, demoGot 2 200 [] (some demoSdp), demoOk 4, demoOk 3], fun _ h => by (cases h), ?_, rfl⟩, _, rfl, by decide⟩
  intro op hop
  simp only [List.mem_cons, List.not_mem_nil, or_false] at hop
  rcases hop with rfl | rfl | rfl | rfl <;> trivial

-- The same after a frame and a response that came before OPTIONS was sent.
example : ∃ s, PlainReachable demoWorld s ∧ ∃ b, s.out = [.started []] ++ .notified 1 :: b ∧ setupsSent b = 2 ∧ b.length = 10 := by
  refine ⟨_, ⟨b!"rtsp://h/x", .tcp, some (b!"u", b!"p"), [.item (.frame 0 [1]), demoOk 7],
    [demoGot 1 200 [] none, demoGot 2 200 [] (some demoSdp), demoOk 4, demoOk 3], ?_, ?_, rfl⟩, _, rfl, by decide, by decide⟩
  · intro op hop
    simp only [List.mem_cons, List.not_mem_nil, or_false] at hop
    rcases hop with rfl | rfl <;> trivial
  · intro op hop
    simp only [List.mem_cons, List.not_mem_nil, or_false] at hop
    rcases hop with rfl | rfl | rfl | rfl <;> trivial

/-- C59 fails if the user calls Describe again: Ready is reported after the first answer, with a SETUP pending. -/
theorem C59_refuted : ∃ s b, run demoWorld newSession (demoSetup ++ [demoOk 3, demoOk 4, .describe, demoGot 5 200 [] (some demoSdp), demoOk 6]) = .ok s ∧
    s.out = [.started []] ++ .notified 1 :: b ∧ (pending 7 b).map (·.verb) = some b!"SETUP" := ⟨_, _, rfl, rfl, by decide⟩

/-! ## C61 -/

/-- C61, what holds: when the answer to the DESCRIBE comes with at least one feed, a SETUP is sent for each of them, numbered from the number of requests
so far. However these are answered, in any order and with packets and commands in between, Ready is reported right after the last answer, and not before. Required: writing and
listening work, and no SETUP is refused with 401 (`Completes`: or has a Transport header the feed does not accept). -/
theorem C61_ready_partial (w : World) (hw : ∀ o b, w.write o b = .ok) (hl : ∀ o k p, w.listen o k p = .ok) (s : Sess) (hr : PlainReachable w s)
    (rsp : Response) (req : Request) (hp : pending rsp.cseq s.out = some req) (hv : req.verb = b!"DESCRIBE") (h401 : rsp.statusCode ≠ 401)
    (body : Bytes) (hb : rsp.body = some body) (feeds : List Feed) (hf : parseFeeds s.proto body = .ok feeds) (hne : feeds ≠ []) :
    ∃ t, step w s (.item (.response rsp)) = .ok (t, none) ∧
      (∀ c ∈ numbers (newSeqs s.out).length feeds.length, ∃ q, pending c t.out = some q ∧ q.verb = b!"SETUP") ∧
      ∀ ops, Answered (Completes w (newSeqs s.out).length feeds) (numbers (newSeqs s.out).length feeds.length) ops →
        ∃ s' sinks rest, Runs w t ops s' ∧ s'.out = .started sinks :: .notified 1 :: rest ∧ readies rest = readies s.out := by
  have inv := inv_reachable (PlainReachable.reachable hr)
  obtain ⟨ho, hproto⟩ := plain_static hr
  obtain ⟨d, hc⟩ := plain_counts hr
  have hfind : s.find rsp.cseq = some req := by rw [inv.find]; exact hp
  have hd : d = 0 := by
    have h1 := hc.once
    have h2 := cnt_found b!"DESCRIBE" s.queue rsp.cseq req hfind hv
    omega
  have hidx := (hc.fresh hd).2.1
  rw [inv.seqs]
  -- the answer to the DESCRIBE
  have hstep : ∀ r, Sess.setup w { s with queue := s.queue.filter (fun e => e.1 ≠ rsp.cseq), session := learned s.session (rsp.header.get b!"Session"), out := .got rsp :: s.out, feeds := feeds } = .ok r →
      step w s (.item (.response rsp)) = .ok r := by
    intro r h
    show handleRtsp w { s with out := .got rsp :: s.out } rsp = _
    unfold handleRtsp
    rw [show ({ s with out := .got rsp :: s.out } : Sess).find rsp.cseq = some req from hfind]
    dsimp only
    rw [if_neg h401, learnSession_eq]
    unfold answer
    rw [hv, if_neg (by decide), if_pos (by decide), hb]
    dsimp only [Sess.remove]
    rw [hf]
    exact h
  obtain ⟨t, h1, h2, h3, h4, h5, h6, h7⟩ := setupLoop_ok hw feeds []
    { s with queue := s.queue.filter (fun e => e.1 ≠ rsp.cseq), session := learned s.session (rsp.header.get b!"Session"), out := .got rsp :: s.out, feeds := feeds } ho hproto rfl
  have hst := hstep _ h1
  dsimp only at h2 h4 h7
  have hall : ∀ c ∈ numbers s.cseq feeds.length, ∃ q, t.find c = some q ∧ q.verb = b!"SETUP" := by
    intro c hc
    unfold numbers at hc
    obtain ⟨i, hi, rfl⟩ := List.mem_map.1 hc
    exact h7 i (List.mem_range.1 hi)
  have invt : Inv t := inv_prims (step_prims hst) inv
  refine ⟨t, hst, fun c hc => ?_, fun ops hops => ?_⟩
  · rw [← invt.find]; exact hall c hc
  · have hstat := step_static (fun e => by (cases e)) hst
    have hidx' : t.feedidx + (numbers s.cseq feeds.length).length = feeds.length := by
      rw [h3]
      show s.feedidx + _ = _
      rw [hidx]
      simp [numbers]
    have hwait : Waiting s.cseq feeds (numbers s.cseq feeds.length) t := by
      refine ⟨?_, ?_, ?_, hidx', fun _ h => h, numbers_nodup _ _, hall, ?_, fun g hg _ => ?_⟩
      · rw [hstat.1]; exact ho
      · rw [hstat.2.1]; exact hproto
      · rw [h2]; exact numberFrom_cseq feeds s.cseq
      · rw [h4]; exact Nat.le_refl _
      · rw [h2] at hg; exact numberFrom_mem feeds s.cseq g hg
    obtain ⟨s', sinks, rest, i1, i2, i3⟩ := waiting_all hw hl hops (by
      intro e
      have := congrArg List.length e
      simp [numbers] at this
      exact hne this) hwait
    exact ⟨s', sinks, rest, i1, i2, i3.trans h5⟩

/-- The feeds of the description. -/
def demoFeeds : List Feed := (parseFeeds .tcp demoSdp).toOption.getD []

/-- Two feeds, answered in reverse order, one of them with an error. -/
example : ∃ (s : Sess) (rsp : Response) (req : Request) (ops : List Op), PlainReachable demoWorld s ∧ pending rsp.cseq s.out = some req ∧ req.verb = b!"DESCRIBE" ∧
    rsp.statusCode ≠ 401 ∧ rsp.body = some demoSdp ∧ parseFeeds s.proto demoSdp = .ok demoFeeds ∧ demoFeeds.length = 2 ∧ (newSeqs s.out).length = 2 ∧
    Answered (Completes demoWorld 2 demoFeeds) (numbers 2 2) ops := by
  refine ⟨_, demoRsp 2 200 [] (some demoSdp), _, [demoOk 4, .play, demoGot 3 404 [] none],
    ⟨b!"rtsp://h/x", .tcp, some (b!"u", b!"p"), [], [demoGot 1 200 [] none], fun _ h => by (cases h), ?_, rfl⟩, rfl, by decide, by decide, rfl, rfl, rfl, rfl, ?_⟩
  · intro op hop
    rw [List.mem_singleton] at hop
    subst hop
    trivial
  · have h4 : Completes demoWorld 2 demoFeeds (demoRsp 4 200 [(b!"Transport", b!"RTP/AVP/TCP;unicast;interleaved=0-1")] none) := by
      refine ⟨by decide, fun _ i f hf hi => ?_⟩
      have hi : (4 : Int) = 2 + 1 + i := hi
      have : i = 1 := by omega
      subst this
      have e : ∀ g : Feed, demoFeeds[1]? = some g → (g.transportSetup demoWorld.inf b!"RTP/AVP/TCP;unicast;interleaved=0-1").toOption.map (·.2.isNone) = some true := by
        intro g hg
        injection hg with hg
        rw [← hg]
        decide
      have := e f hf
      revert this
      show _ → ∃ f', f.transportSetup demoWorld.inf b!"RTP/AVP/TCP;unicast;interleaved=0-1" = .ok (f', none)
      generalize f.transportSetup demoWorld.inf b!"RTP/AVP/TCP;unicast;interleaved=0-1" = r
      intro hr
      cases r with
      | error p => cases hr
      | ok r =>
        obtain ⟨f', x⟩ := r
        cases x with
        | none => exact ⟨f', rfl⟩
        | some x => cases hr
    exact .answer (by decide) h4 (.play (by decide) (.answer (rsp := demoRsp 3 404 [] none) (by decide) ⟨by decide, fun h => absurd h (by decide)⟩ .done))

/-- C61 fails without feeds: nothing is sent and, as long as the user does nothing but play, pause and so on, Ready is never reported. -/
theorem C61_none_refuted (w : World) (s : Sess) (hr : PlainReachable w s)
    (rsp : Response) (req : Request) (hp : pending rsp.cseq s.out = some req) (hv : req.verb = b!"DESCRIBE") (h401 : rsp.statusCode ≠ 401)
    (body : Bytes) (hb : rsp.body = some body) (hf : parseFeeds s.proto body = .ok []) :
    ∃ t, step w s (.item (.response rsp)) = .ok (t, none) ∧ t.out = .got rsp :: s.out ∧
      ∀ ops s', (∀ op ∈ ops, Plain op) → run w t ops = .ok s' → readies s'.out = 0 := by
  have inv := inv_reachable (PlainReachable.reachable hr)
  obtain ⟨d, hc⟩ := plain_counts hr
  have hfind : s.find rsp.cseq = some req := by rw [inv.find]; exact hp
  have hd : d = 0 := by
    have h1 := hc.once
    have h2 := cnt_found b!"DESCRIBE" s.queue rsp.cseq req hfind hv
    omega
  subst hd
  obtain ⟨f1, f2, f3⟩ := hc.fresh rfl
  have hst : step w s (.item (.response rsp)) = .ok ({ s with queue := s.queue.filter (fun e => e.1 ≠ rsp.cseq), session := learned s.session (rsp.header.get b!"Session"), out := .got rsp :: s.out, feeds := [] }, none) := by
    show handleRtsp w { s with out := .got rsp :: s.out } rsp = _
    unfold handleRtsp
    rw [show ({ s with out := .got rsp :: s.out } : Sess).find rsp.cseq = some req from hfind]
    dsimp only
    rw [if_neg h401, learnSession_eq]
    unfold answer
    rw [hv, if_neg (by decide), if_pos (by decide), hb]
    dsimp only [Sess.remove]
    rw [hf]
    rfl
  refine ⟨_, hst, rfl, fun ops s' hops hrun => ?_⟩
  have t0 := counts_took hc inv.find hfind (learned s.session (rsp.header.get b!"Session")) [.got rsp] (.inl rfl)
  have k1 := cnt_found b!"DESCRIBE" s.queue rsp.cseq req hfind hv
  have hon := hc.once
  have h1 : Counts 1 { s with queue := s.queue.filter (fun e => e.1 ≠ rsp.cseq), session := learned s.session (rsp.header.get b!"Session"), out := .got rsp :: s.out, feeds := [] } := by
    refine ⟨fun hd => by (cases hd), ?_, t0.open_, Nat.le_of_eq f3, t0.idx, fun c _ => by simp, t0.past⟩
    have k2 := cnt_filter b!"OPTIONS" s.queue rsp.cseq
    dsimp only
    by_cases hst : s.stage = 0
    · rw [if_pos hst] at hon ⊢; omega
    · rw [if_neg hst] at hon ⊢; omega
  obtain ⟨d', h2, h3⟩ := counts_run ops hops (inv_prims (step_prims hst) inv) h1 hrun
  have hsent := h2.sent
  rw [(h3 rfl).2] at hsent
  have hz : setupsSent s'.out = 0 := Nat.le_zero.1 hsent
  have hpast := h2.past
  clear hsent h2 h3 hrun
  revert hz hpast
  generalize s'.out = o
  induction o with
  | nil => intro _ _; rfl
  | cons x o ih =>
    intro hz hpast
    cases x with
    | sent r q res =>
      cases r with
      | true => exact ih hz hpast.2
      | false => exact ih (by have : setupsSent o + _ = 0 := hz; omega) hpast.2
    | got => exact ih hz hpast.2
    | started => exact ih hz hpast.2
    | data => exact ih hz hpast.2
    | notified st =>
      have hz : setupsSent o = 0 := hz
      show readies o + (if st = 1 then 1 else 0) = 0
      rw [ih hz hpast.2, if_neg]
      intro hst
      have := (hpast.1 hst).2.2
      omega

example : ∃ (s : Sess) (rsp : Response) (req : Request) (body : Bytes), PlainReachable demoWorld s ∧ pending rsp.cseq s.out = some req ∧ req.verb = b!"DESCRIBE" ∧
    rsp.statusCode ≠ 401 ∧ rsp.body = some body ∧ parseFeeds s.proto body = .ok [] := by
  refine ⟨_, demoRsp 2 200 [] (some b!"v=0\r\n"), _, _,
    ⟨b!"rtsp://h/x", .tcp, some (b!"u", b!"p"), [], [demoGot 1 200 [] none], fun _ h => by (cases h), ?_, rfl⟩, rfl, by decide, by decide, rfl, rfl⟩
  intro op hop
  rw [List.mem_singleton] at hop
  subst hop
  trivial

/-- C61 fails with two feeds and a 401 for the first SETUP: it is sent again with the number of the second; both are granted, but the second answer is an
error and Ready is not reported. -/
theorem C61_refuted : ∃ s, run demoWorld newSession (demoSetup ++ [demo401 3, demoOk 4]) = .ok s ∧
    sentSeqs s = [(false, b!"OPTIONS", 1), (false, b!"DESCRIBE", 2), (false, b!"SETUP", 3), (false, b!"SETUP", 4), (true, b!"SETUP", 4)] ∧ readies s.out = 0 ∧
    ∃ s', step demoWorld s (demoOk 4) = .ok (s', some .badResponse) ∧ readies s'.out = 0 := ⟨_, rfl, by decide, by decide, _, rfl, by decide⟩

/-! ## C60, what holds -/

/-- C60, what holds: in every history there are not more retries than refusals (so the attempts are bounded by what the server does). -/
theorem C60_per_refusal_partial (w : World) (s : Sess) (h : Reachable w s) : retries s.out ≤ refusals s.out := by
  refine Prims.induct (P := fun s => retries s.out ≤ refusals s.out) (reachable_prims h) (Nat.le_refl _) (fun s t hp h => ?_)
  cases hp with
  | quiet hc hq hs ho => rw [ho]; exact h
  | data ch p hc hq hs ho => rw [ho]; exact h
  | ready k hc hq hs ho => rw [ho]; exact h
  | unknown rsp hf hc hq hs ho => rw [ho]; exact Nat.le_trans h (Nat.le_add_right _ _)
  | refused rsp req hf h401 hc hq hs ho => rw [ho]; exact Nat.le_trans h (Nat.le_add_right _ _)
  | retried rsp req a res hf h401 hc hq hs ho =>
    rw [ho]
    show retries s.out + 1 ≤ refusals s.out + if rsp.statusCode = 401 then 1 else 0
    rw [if_pos h401]
    omega
  | answered rsp req hf h401 hc hq hs ho => rw [ho]; exact Nat.le_trans h (Nat.le_add_right _ _)
  | granted rsp req st hf h200 hst hc hq hs ho => rw [ho]; exact Nat.le_trans h (Nat.le_add_right _ _)
  | cmd req res hseq hses hsh hc hq hs ho => rw [ho]; exact h

theorem sends_retries {s s' : Sess} (h : Sends s s') : retries s'.out = retries s.out := by
  induction h with
  | refl => rfl
  | step h _ ih =>
    rw [ih]
    cases h with
    | quiet hc hq hs ho => rw [ho]
    | ready k hc hq hs ho => rw [ho]; rfl
    | cmd req res h1 h2 h3 hc hq hs ho => rw [ho]; rfl

theorem step_retries {w : World} {s s' : Sess} {op : Op} {e : Option SErr} (hu : s.user = none) (hop : ¬ Opens op) (h : step w s op = .ok (s', e)) :
    retries s'.out = retries s.out := by
  cases op with
  | dial uri proto user => exact absurd trivial hop
  | open_ uri proto user => exact absurd trivial hop
  | options => exact sends_retries (options_sends h)
  | describe => exact sends_retries (describe_sends h)
  | setup => exact sends_retries (setup_sends h)
  | play => exact sends_retries (command_sends (fun _ _ => .other (.inl rfl) rfl) (deref_ok h))
  | pause => exact sends_retries (command_sends (fun _ _ => .other (.inr (.inl rfl)) rfl) (deref_ok h))
  | teardown => exact sends_retries (command_sends (fun _ _ => .other (.inr (.inr rfl)) rfl) (deref_ok h))
  | keepAlive due => exact sends_retries (keepAlive_sends h)
  | item i =>
    cases i with
    | frame ch p => injection h with h; injection h with h _; subst h; rfl
    | response rsp =>
      cases hf : s.find rsp.cseq with
      | none =>
        have h : handleRtsp w { s with out := .got rsp :: s.out } rsp = .ok (s', e) := h
        unfold handleRtsp at h
        rw [show ({ s with out := .got rsp :: s.out } : Sess).find rsp.cseq = none from hf] at h
        injection h with h; injection h with h _; subst h; rfl
      | some req =>
        by_cases h401 : rsp.statusCode = 401
        · have h : handleRtsp w { s with out := .got rsp :: s.out } rsp = .ok (s', e) := h
          unfold handleRtsp at h
          rw [show ({ s with out := .got rsp :: s.out } : Sess).find rsp.cseq = some req from hf] at h
          dsimp only at h
          rw [if_pos h401] at h
          unfold retry authorize at h
          dsimp only [Sess.remove] at h
          rw [hu] at h
          cases hd : newDigest s.baseURI (rsp.header.get b!"WWW-Authenticate") with
          | error x => rw [hd] at h; injection h with h; injection h with h _; subst h; rfl
          | ok d => rw [hd] at h; injection h with h; injection h with h _; subst h; rfl
        · obtain ⟨t, h1, h2⟩ := handle_took hf h401 h
          rw [sends_retries h2]
          cases h1 with
          | answered hc hq hs ho => rw [ho]; rfl
          | granted st h200 hst hc hq hs ho => rw [ho]; rfl

theorem dial_retries (w : World) (uri : Bytes) (proto : Proto) (ops : List Op) (hop : ∀ op ∈ ops, ¬ Opens op) (s : Sess)
    (h : run w newSession (.dial uri proto none :: ops) = .ok s) : retries s.out = 0 := by
  have key : ∀ (ops : List Op) (s s' : Sess), (∀ op ∈ ops, ¬ Opens op) → s.user = none → run w s ops = .ok s' → retries s'.out = retries s.out := by
    intro ops
    induction ops with
    | nil => intro s s' _ _ h; injection h with h; subst h; rfl
    | cons op ops ih =>
      intro s s' hop hu h
      unfold run at h
      cases hs : step w s op with
      | error p => rw [hs] at h; cases h
      | ok r =>
        obtain ⟨t, e⟩ := r
        rw [hs] at h
        have hop1 := hop op (by simp)
        rw [ih t s' (fun o ho => hop o (by simp [ho])) (by rw [(step_static hop1 hs).2.2.2]; exact hu) h]
        exact step_retries hu hop1 hs
  exact key ops _ s hop rfl (show run w (dialled uri proto none []) ops = .ok s from h)

/-- C60, what holds: without credentials in the address nothing is ever sent again. -/
theorem C60_no_credentials_partial (w : World) (uri : Bytes) (proto : Proto) (ops : List Op) (hop : ∀ op ∈ ops, ¬ Opens op) (s : Sess)
    (h : run w newSession (.open_ uri proto none :: ops) = .ok s) : retries s.out = 0 :=
  dial_retries w uri proto (.options :: ops) (fun op ho => by
    rcases List.mem_cons.1 ho with rfl | ho
    · exact id
    · exact hop op ho) s h

example : ∃ s, run demoWorld newSession [.open_ b!"rtsp://h/x" .tcp none, .play, demo401 1, demo401 2] = .ok s ∧ refusals s.out = 2 ∧ retries s.out = 0 :=
  ⟨_, rfl, by decide, by decide⟩

example : ∃ s, Reachable demoWorld s ∧ retries s.out = 3 ∧ refusals s.out = 3 := ⟨_, ⟨[demoOpen, demo401 1, demo401 1, demo401 1], rfl⟩, by decide, by decide⟩

end Ouro
