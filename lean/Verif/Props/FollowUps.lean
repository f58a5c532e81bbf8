import Verif.Spec.FollowUps
import Verif.Props.Follow
/-! # C72, C89: exactly what follows an answer -/
namespace Ouro
open Spec

/-- What the loop of `Setup` sends, when writing may fail. -/
theorem setupLoop_news {w : World} (fs : List Feed) : ∀ (done : List Feed) (s s' : Sess) (e : Option SErr), s.opened = true → setupLoop w done fs s = .ok (s', e) →
    ∃ new, s'.out = new ++ s.out ∧ (∀ o ∈ new, ∃ q res, o = .sent false q res ∧ q.verb = b!"SETUP") ∧ (fs = [] ↔ new = []) ∧ (e ≠ none ↔ SendFails new) := by
  induction fs with
  | nil =>
    intro done s s' e _ h
    injection h with h; injection h with h1 h2
    subst h1 h2
    exact ⟨[], rfl, fun _ h => by (cases h), by simp, by simp [SendFails]⟩
  | cons f fs ih =>
    intro done s s' e ho h
    unfold setupLoop at h
    cases hc : command w s verbSetup (setupURI s.baseURI f.media.control) [(b!"Transport", f.transportHeader)] with
    | error p => rw [hc] at h; cases h
    | ok v =>
      obtain ⟨t, x⟩ := v
      rw [hc] at h
      rcases command_out hc with ⟨h1, _⟩ | ⟨_, _, a, y, res, ht, hres⟩
      · exact absurd (ho.symm.trans h1) (by decide)
      · have hto : t.out = .sent false ⟨verbSetup, s.cseq + 1, setupURI s.baseURI f.media.control, a, s.session,
            [(b!"Transport", f.transportHeader)].foldl (fun h e => h.set e.1 e.2) []⟩ res :: s.out := by rw [ht]
        have hopen : t.opened = true := by rw [ht]; exact ho
        generalize (⟨verbSetup, (s.cseq : Int) + 1, setupURI s.baseURI f.media.control, a, s.session,
            [(b!"Transport", f.transportHeader)].foldl (fun h e => h.set e.1 e.2) []⟩ : Request) = req at hto ht
        have hverb : req.verb = b!"SETUP" := by
          have : Out.sent false req res ∈ t.out := by rw [hto]; exact List.mem_cons_self
          have e2 : t.out = _ := congrArg Sess.out ht
          rcases command_out hc with ⟨h1, _⟩ | ⟨_, _, a', y', res', ht', _⟩
          · exact absurd (ho.symm.trans h1) (by decide)
          · have e3 := congrArg Sess.out ht'
            rw [hto] at e3
            injection e3 with e3
            injection e3 with _ e3
            rw [e3]
            rfl
        cases x with
        | some x =>
          injection h with h; injection h with h1 h2
          subst h1 h2
          refine ⟨[.sent false req res], hto, fun o h => ?_, by simp, ?_⟩
          · rw [List.mem_singleton] at h; exact ⟨req, res, h, hverb⟩
          · refine ⟨fun _ => ⟨false, req, res, List.mem_singleton.2 rfl, fun hr => ?_⟩, fun _ => by simp⟩
            subst hr; cases hres
        | none =>
          have hres : res = .ok := by cases res <;> first | rfl | cases hres
          obtain ⟨new, n1, n2, n3, n4⟩ := ih (done ++ [{ f with cseq := (t.cseq : Int) }]) { t with feeds := done ++ { f with cseq := (t.cseq : Int) } :: fs } s' e hopen h
          refine ⟨new ++ [.sent false req res], by rw [n1, List.append_assoc]; exact congrArg _ hto, fun o h => ?_, by simp, ?_⟩
          · rcases List.mem_append.1 h with h | h
            · exact n2 o h
            · rw [List.mem_singleton] at h; exact ⟨req, res, h, hverb⟩
          · rw [n4]
            constructor
            · rintro ⟨r, q, rs, hm, hne⟩; exact ⟨r, q, rs, List.mem_append_left _ hm, hne⟩
            · rintro ⟨r, q, rs, hm, hne⟩
              rcases List.mem_append.1 hm with hm | hm
              · exact ⟨r, q, rs, hm, hne⟩
              · rw [List.mem_singleton] at hm
                injection hm with _ _ hm
                exact absurd (hm.trans hres) hne

/-- What one answer leads to. -/
theorem follow_ups (w : World) (s s' : Sess) (h : Reachable w s) (ho : s.opened = true) (rsp : Response) (req : Request) (e : Option SErr)
    (hp : pending rsp.cseq s.out = some req) (hc : rsp.statusCode ≠ 401) (hs : step w s (.item (.response rsp)) = .ok (s', e)) :
    ∃ new, s'.out = new ++ .got rsp :: s.out ∧ (SendsOne new ↔ Continues (stageNow s.out) req rsp) ∧
      (∀ r q res, Out.sent r q res ∈ new → (req.verb = b!"OPTIONS" ∧ q.verb = b!"DESCRIBE") ∨ (req.verb = b!"DESCRIBE" ∧ q.verb = b!"SETUP")) ∧
      (req.verb = b!"OPTIONS" ∨ req.verb = b!"DESCRIBE" → (e ≠ none ↔ SendFails new) ∧ ¬ Reports new) := by
  by_cases hv : req.verb ≠ b!"OPTIONS" ∧ req.verb ≠ b!"DESCRIBE"
  · obtain ⟨told, h1, h2⟩ := C89_nothing_partial w s s' h rsp req e hp hv hc hs
    refine ⟨told, h1, ⟨fun ⟨r, q, res, hm⟩ => absurd rfl (h2 _ hm r q res), fun hx => ?_⟩, fun r q res hm => absurd rfl (h2 _ hm r q res), fun hx => ?_⟩
    · rcases hx with ⟨hx, _⟩ | ⟨hx, _⟩
      · exact absurd hx hv.1
      · exact absurd hx hv.2
    · rcases hx with hx | hx
      · exact absurd hx hv.1
      · exact absurd hx hv.2
  · have hf : s.find rsp.cseq = some req := by rw [(inv_reachable h).find]; exact hp
    have hs : handleRtsp w { s with out := .got rsp :: s.out } rsp = .ok (s', e) := hs
    unfold handleRtsp at hs
    rw [show ({ s with out := .got rsp :: s.out } : Sess).find rsp.cseq = some req from hf] at hs
    dsimp only at hs
    rw [if_neg hc, learnSession_eq] at hs
    unfold answer at hs
    have hstage : s.stage = stageNow s.out := stageOk_reachable h
    by_cases hvo : req.verb = b!"OPTIONS"
    · have hnd : req.verb ≠ b!"DESCRIBE" := by rw [hvo]; decide
      rw [if_pos (show req.verb = verbOptions from hvo)] at hs
      split at hs
      · next hst =>
        have h0 : stageNow s.out = 0 := hstage.symm.trans hst
        have hs : command w _ _ _ _ = _ := deref_ok hs
        rcases command_out hs with ⟨h1, _⟩ | ⟨_, _, a, x, res, rfl, hres⟩
        · exact absurd (h1.symm.trans ho) (by decide)
        · refine ⟨[.sent false _ res], rfl, ⟨fun _ => .inl ⟨hvo, h0⟩, fun _ => ⟨_, _, _, List.mem_singleton.2 rfl⟩⟩, fun r q res' hm => ?_, fun _ => ⟨?_, ?_⟩⟩
          · rw [List.mem_singleton] at hm
            injection hm with _ hq _
            rw [hq]
            exact .inl ⟨hvo, rfl⟩
          · rw [hres]
            constructor
            · intro hne
              refine ⟨_, _, res, List.mem_singleton.2 rfl, fun hr => ?_⟩
              subst hr; exact hne rfl
            · rintro ⟨r, q, rs, hm, hne⟩ he
              rw [List.mem_singleton] at hm
              injection hm with _ _ hm
              subst hm
              cases rs <;> first | exact hne rfl | cases he
          · rintro ⟨k, hm⟩
            rw [List.mem_singleton] at hm
            cases hm
      · next hst =>
        injection hs with hs; injection hs with h1 h2
        subst h1 h2
        refine ⟨[], rfl, ⟨fun ⟨_, _, _, hm⟩ => (by cases hm), fun hx => ?_⟩, fun r q res hm => (by cases hm), fun _ => ⟨by simp [SendFails], fun ⟨_, hm⟩ => (by cases hm)⟩⟩
        rcases hx with ⟨_, hx⟩ | ⟨hx, _⟩
        · exact absurd (hstage.trans hx) hst
        · exact absurd hx hnd
    · have hvd : req.verb = b!"DESCRIBE" := Classical.byContradiction fun hn => hv ⟨hvo, hn⟩
      rw [if_neg (show ¬ req.verb = verbOptions from hvo), if_pos (show req.verb = verbDescribe from hvd)] at hs
      cases hb : rsp.body with
      | none =>
        rw [hb] at hs
        injection hs with hs; injection hs with h1 h2
        subst h1 h2
        refine ⟨[], rfl, ⟨fun ⟨_, _, _, hm⟩ => (by cases hm), fun hx => ?_⟩, fun r q res hm => (by cases hm), fun _ => ⟨by simp [SendFails], fun ⟨_, hm⟩ => (by cases hm)⟩⟩
        rcases hx with ⟨hx, _⟩ | ⟨_, body, hx, _⟩
        · exact absurd hx hvo
        · rw [hb] at hx; cases hx
      | some body =>
        rw [hb] at hs
        dsimp only at hs
        cases hpf : parseFeeds (({ s with out := .got rsp :: s.out } : Sess).remove rsp.cseq).proto body with
        | error p => rw [hpf] at hs; cases hs
        | ok feeds =>
          rw [hpf] at hs
          dsimp only [Sess.setup] at hs
          obtain ⟨new, n1, n2, n3, n4⟩ := setupLoop_news feeds [] _ s' e (by exact ho) hs
          have hnil : feeds = [] ↔ videoSections (split 10 body) = [] := by
            unfold parseFeeds at hpf
            cases hms : sdpParse body with
            | error p => rw [hms] at hpf; cases hpf
            | ok ms =>
              rw [hms] at hpf
              injection hpf with hpf
              have hn := (C35_sections body ms hms).1
              have hmap := ((C48_feeds s.proto body).2 ms).1
              have hflen : feeds.length = ms.length := by rw [← hpf]; rw [← hmap, List.length_map, hmap]; rfl
              rw [← List.length_eq_zero_iff, ← List.length_eq_zero_iff (l := videoSections _), hflen, hn]
          refine ⟨new, n1, ⟨fun ⟨r, q, res, hm⟩ => .inr ⟨hvd, body, hb, fun h0 => ?_⟩, fun hx => ?_⟩, fun r q res hm => ?_, fun _ => ⟨n4, ?_⟩⟩
          · rw [n3.1 (hnil.2 h0)] at hm; cases hm
          · rcases hx with ⟨hx, _⟩ | ⟨_, body', hx, hne⟩
            · exact absurd hx hvo
            · rw [hb] at hx
              injection hx with hx
              subst hx
              cases hnew : new with
              | nil => exact absurd (hnil.1 (n3.2 hnew)) hne
              | cons o t =>
                obtain ⟨q, res, ho', _⟩ := n2 o (by rw [hnew]; exact List.mem_cons_self)
                exact ⟨false, q, res, by rw [ho']; exact List.mem_cons_self⟩
          · obtain ⟨q', res', he, hq⟩ := n2 _ hm
            injection he with _ he _
            rw [he]
            exact .inr ⟨hvd, hq⟩
          · rintro ⟨k, hm⟩
            obtain ⟨q', res', he, _⟩ := n2 _ hm
            cases he

/-- **C89**, exact law. After an answer of any status but 401 the session sends something by itself exactly if it is the answer to
an OPTIONS at the beginning (DESCRIBE is sent), or an answer to a DESCRIBE with a body that has a video section (SETUP is sent). The status of the
answer is no part of it. -/
theorem C89_iff (w : World) (s s' : Sess) (h : Reachable w s) (ho : s.opened = true) (rsp : Response) (req : Request) (e : Option SErr)
    (hp : pending rsp.cseq s.out = some req) (hc : rsp.statusCode ≠ 401) (hs : step w s (.item (.response rsp)) = .ok (s', e)) :
    ∃ new, s'.out = new ++ .got rsp :: s.out ∧ (SendsOne new ↔ Continues (stageNow s.out) req rsp) ∧
      ∀ r q res, Out.sent r q res ∈ new → (req.verb = b!"OPTIONS" ∧ q.verb = b!"DESCRIBE") ∨ (req.verb = b!"DESCRIBE" ∧ q.verb = b!"SETUP") := by
  obtain ⟨new, h1, h2, h3, _⟩ := follow_ups w s s' h ho rsp req e hp hc hs
  exact ⟨new, h1, h2, h3⟩

/-- **C72**, exact law for commands other than SETUP. When one is refused, the user is told, by an error or a stage, exactly if a request
that follows by itself cannot be written: of the refusal itself the user is never told. -/
theorem C72_told_iff (w : World) (s s' : Sess) (h : Reachable w s) (ho : s.opened = true) (rsp : Response) (req : Request) (e : Option SErr)
    (hp : pending rsp.cseq s.out = some req) (hc : rsp.statusCode ≠ 401) (hr : rsp.statusCode ≠ 200) (hv : req.verb ≠ b!"SETUP")
    (hs : step w s (.item (.response rsp)) = .ok (s', e)) :
    ∃ new, s'.out = new ++ .got rsp :: s.out ∧ (e ≠ none ∨ Reports new ↔ SendFails new) := by
  obtain ⟨new, h1, h2, h3, h4⟩ := follow_ups w s s' h ho rsp req e hp hc hs
  refine ⟨new, h1, ?_⟩
  by_cases hod : req.verb = b!"OPTIONS" ∨ req.verb = b!"DESCRIBE"
  · obtain ⟨h5, h6⟩ := h4 hod
    exact ⟨fun hx => hx.elim h5.1 fun hx => absurd hx h6, fun hx => .inl (h5.2 hx)⟩
  · have hne : req.verb ≠ b!"OPTIONS" ∧ req.verb ≠ b!"DESCRIBE" := not_or.1 hod
    have hf : s.find rsp.cseq = some req := by rw [(inv_reachable h).find]; exact hp
    have hs : handleRtsp w { s with out := .got rsp :: s.out } rsp = .ok (s', e) := hs
    unfold handleRtsp at hs
    rw [show ({ s with out := .got rsp :: s.out } : Sess).find rsp.cseq = some req from hf] at hs
    dsimp only at hs
    rw [if_neg hc, learnSession_eq] at hs
    unfold answer at hs
    rw [if_neg (show ¬ req.verb = verbOptions from hne.1), if_neg (show ¬ req.verb = verbDescribe from hne.2), if_neg hr, if_neg hr, if_neg hr,
      if_neg (show ¬ req.verb = verbSetup from hv)] at hs
    have key : (Except.ok (s', e) : Go (Sess × Option SErr)) = .ok (({ ({ s with out := .got rsp :: s.out } : Sess).remove rsp.cseq with
        session := learned (({ s with out := .got rsp :: s.out } : Sess).remove rsp.cseq).session (rsp.header.get b!"Session") } : Sess), none) := by
      rw [← hs]
      repeat' split
      all_goals rfl
    injection key with key
    injection key with k1 k2
    have hnew : new = [] := by
      rw [k1] at h1
      have := congrArg List.length h1
      simp only [Sess.remove, List.length_append] at this
      exact List.length_eq_zero_iff.1 (by omega)
    rw [hnew, k2]
    simp [Reports, SendFails]

/-- An OPTIONS that is refused is continued, an OPTIONS later on is not. -/
example : ∃ s s', run demoWorld newSession [demoOpen] = .ok s ∧ s.opened = true ∧ step demoWorld s (demoGot 1 500 [] none) = .ok (s', none) ∧
    ∃ req, pending 1 s.out = some req ∧ Continues (stageNow s.out) req (demoRsp 1 500 [] none) := ⟨_, _, rfl, rfl, rfl, _, rfl, .inl ⟨by decide, by decide⟩⟩

example : ∃ s s', run demoWorld newSession [demoOpen, .play] = .ok s ∧ s.opened = true ∧ step demoWorld s (demoGot 2 454 [] none) = .ok (s', none) ∧
    ∃ req, pending 2 s.out = some req ∧ req.verb ≠ b!"SETUP" := ⟨_, _, rfl, rfl, rfl, _, rfl, by decide⟩

end Ouro
