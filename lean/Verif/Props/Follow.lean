import Verif.Props.Commands
/-! # C89: what follows a response -/
namespace Ouro
open Spec

/-- C89, what holds: after an answer to a PLAY, PAUSE, TEARDOWN or SETUP, of whatever status, the session sends nothing by itself. -/
theorem C89_nothing_partial (w : World) (s s' : Sess) (h : Reachable w s) (rsp : Response) (req : Request) (e : Option SErr)
    (hp : pending rsp.cseq s.out = some req) (hv : req.verb ≠ b!"OPTIONS" ∧ req.verb ≠ b!"DESCRIBE") (hc : rsp.statusCode ≠ 401)
    (hs : step w s (.item (.response rsp)) = .ok (s', e)) : ∃ told, s'.out = told ++ .got rsp :: s.out ∧ ∀ o ∈ told, ∀ r q res, o ≠ .sent r q res := by
  have hf : s.find rsp.cseq = some req := by rw [(inv_reachable h).find]; exact hp
  have hs : handleRtsp w { s with out := .got rsp :: s.out } rsp = .ok (s', e) := hs
  unfold handleRtsp at hs
  rw [show ({ s with out := .got rsp :: s.out } : Sess).find rsp.cseq = some req from hf] at hs
  dsimp only at hs
  rw [if_neg hc, learnSession_eq] at hs
  obtain ⟨t, ht⟩ : ∃ t, t = ({ ({ s with out := .got rsp :: s.out } : Sess).remove rsp.cseq with
      session := learned (({ s with out := .got rsp :: s.out } : Sess).remove rsp.cseq).session (rsp.header.get b!"Session") } : Sess) := ⟨_, rfl⟩
  have hto : t.out = .got rsp :: s.out := by rw [ht]; rfl
  rw [← ht] at hs
  have none_ : ∀ o ∈ ([] : List Out), ∀ r q res, o ≠ .sent r q res := fun _ h => by cases h
  have note : ∀ k, ∀ o ∈ [Out.notified k], ∀ r q res, o ≠ .sent r q res := fun k o ho r q res heq => by
    rw [List.mem_singleton] at ho; rw [ho] at heq; cases heq
  have ready : ∀ u : Sess, u.out = .got rsp :: s.out → ∃ told, (checkReady u).out = told ++ .got rsp :: s.out ∧ ∀ o ∈ told, ∀ r q res, o ≠ .sent r q res := by
    intro u hu
    unfold checkReady
    split
    · refine ⟨[.started u.sinks, .notified stageReady], ?_, fun o ho r q res heq => ?_⟩
      · show Out.started u.sinks :: Out.notified stageReady :: u.out = _
        rw [hu]; rfl
      · simp only [List.mem_cons, List.not_mem_nil, or_false] at ho
        rcases ho with rfl | rfl <;> cases heq
    · exact ⟨[], hu, none_⟩
  unfold answer at hs
  rw [if_neg (show ¬ req.verb = verbOptions from hv.1), if_neg (show ¬ req.verb = verbDescribe from hv.2)] at hs
  repeat' split at hs
  · injection hs with hs; injection hs with hs _; subst hs; exact ⟨[.notified stagePause], by show _ :: t.out = _; rw [hto]; rfl, note _⟩
  · injection hs with hs; injection hs with hs _; subst hs; exact ⟨[], hto, none_⟩
  · injection hs with hs; injection hs with hs _; subst hs; exact ⟨[.notified stagePlay], by show _ :: t.out = _; rw [hto]; rfl, note _⟩
  · injection hs with hs; injection hs with hs _; subst hs; exact ⟨[], hto, none_⟩
  · injection hs with hs; injection hs with hs _; subst hs; exact ⟨[.notified stageDone], by show _ :: t.out = _; rw [hto]; rfl, note _⟩
  · injection hs with hs; injection hs with hs _; subst hs; exact ⟨[], hto, none_⟩
  · unfold handleSetup at hs
    split at hs
    · split at hs
      · cases hs
      · next u x hu => injection hs with hs; injection hs with hs _; subst hs; exact ⟨[], (setupAnswer_core _ hu).2.2.2.trans hto, none_⟩
      · next u hu => injection hs with hs; injection hs with hs _; subst hs; exact ready u ((setupAnswer_core _ hu).2.2.2.trans hto)
    · injection hs with hs; injection hs with hs _; subst hs; exact ready { t with feedidx := t.feedidx + 1 } hto
  · injection hs with hs; injection hs with hs _; subst hs; exact ⟨[], hto, none_⟩

example : ∃ (s : Sess) (rsp : Response) (req : Request), Reachable demoWorld s ∧ pending rsp.cseq s.out = some req ∧ (req.verb ≠ b!"OPTIONS" ∧ req.verb ≠ b!"DESCRIBE") ∧ rsp.statusCode ≠ 401 :=
  ⟨_, demoRsp 2 454 [] none, _, ⟨[demoOpen, .play], rfl⟩, rfl, ⟨by decide, by decide⟩, by decide⟩

/-- C89 fails for OPTIONS: whatever the status of the first answer (other than 401), a DESCRIBE is sent. -/
theorem C89_options_refuted (w : World) (s s' : Sess) (h : Reachable w s) (ho : s.opened = true) (rsp : Response) (req : Request) (e : Option SErr)
    (hp : pending rsp.cseq s.out = some req) (hv : req.verb = b!"OPTIONS") (hst : stageNow s.out = 0) (hc : rsp.statusCode ≠ 401)
    (hs : step w s (.item (.response rsp)) = .ok (s', e)) : ∃ q res, s'.out = .sent false q res :: .got rsp :: s.out ∧ q.verb = b!"DESCRIBE" := by
  have hf : s.find rsp.cseq = some req := by rw [(inv_reachable h).find]; exact hp
  have hs : handleRtsp w { s with out := .got rsp :: s.out } rsp = .ok (s', e) := hs
  unfold handleRtsp at hs
  rw [show ({ s with out := .got rsp :: s.out } : Sess).find rsp.cseq = some req from hf] at hs
  dsimp only at hs
  rw [if_neg hc, learnSession_eq] at hs
  unfold answer at hs
  have hstage : s.stage = stageInit := (stageOk_reachable h).trans hst
  rw [if_pos (show req.verb = verbOptions from hv)] at hs
  split at hs
  · have hs : command w _ _ _ _ = _ := deref_ok hs
    rcases command_out hs with ⟨h1, _⟩ | ⟨_, _, a, x, res, rfl, _⟩
    · exact absurd (h1.symm.trans ho) (by decide)
    · exact ⟨_, res, rfl, rfl⟩
  · next hn => exact absurd hstage hn

example : ∃ s s', run demoWorld newSession [demoOpen] = .ok s ∧ s.opened = true ∧ stageNow s.out = 0 ∧ step demoWorld s (demoGot 1 500 [] none) = .ok (s', none) ∧
    sentSeqs s' = [(false, b!"OPTIONS", 1), (false, b!"DESCRIBE", 2)] := ⟨_, _, rfl, rfl, by decide, rfl, by decide⟩

/-- C89 fails for DESCRIBE: the body of a refusal is taken for a description, and SETUP is sent for the streams in it. -/
theorem C89_describe_refuted : ∃ s s', run demoWorld newSession [demoOpen, demoGot 1 200 [] none] = .ok s ∧
    step demoWorld s (demoGot 2 404 [] (some b!"m=video 0 RTP/AVP 96\r\na=control:v\r\n")) = .ok (s', none) ∧
    sentSeqs s' = sentSeqs s ++ [(false, b!"SETUP", 3)] := ⟨_, _, rfl, rfl, by decide⟩

end Ouro
