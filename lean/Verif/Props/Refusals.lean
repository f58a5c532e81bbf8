import Verif.Props.Setup
import Verif.Lemmas.Process
/-! # C60, exactly: how often requests are sent again -/
namespace Ouro
open Spec

/-- How many of the responses so far were a 401 to a request that was pending, with a challenge that can be answered; latest first, `base` is the address. -/
def answerable (base : Bytes) : List Out → Nat
  | [] => 0
  | .got rsp :: older =>
    answerable base older +
      if rsp.statusCode = 401 ∧ pending rsp.cseq older ≠ none ∧ (newDigest base (rsp.header.get b!"WWW-Authenticate")).toOption.isSome = true then 1 else 0
  | _ :: older => answerable base older

theorem sends_challenges {base : Bytes} {s s' : Sess} (h : Sends s s') : answerable base s'.out = answerable base s.out := by
  induction h with
  | refl => rfl
  | step h _ ih =>
    rw [ih]
    cases h with
    | quiet hc hq hs ho => rw [ho]
    | ready k hc hq hs ho => rw [ho]; rfl
    | cmd req res h1 h2 h3 hc hq hs ho => rw [ho]; rfl

/-- Every step adds as many requests sent again as it adds such refusals. -/
theorem step_challenges {w : World} {s s' : Sess} {op : Op} {e : Option SErr} (hr : Reachable w s) (hu : s.user ≠ none) (hop : ¬ Opens op) (h : step w s op = .ok (s', e)) :
    retries s'.out + answerable s.baseURI s.out = retries s.out + answerable s.baseURI s'.out := by
  have quiet : Sends s s' → retries s'.out + answerable s.baseURI s.out = retries s.out + answerable s.baseURI s'.out := fun hs => by
    rw [sends_retries hs, sends_challenges hs]
  cases op with
  | dial uri proto user => exact absurd trivial hop
  | open_ uri proto user => exact absurd trivial hop
  | options => exact quiet (options_sends h)
  | describe => exact quiet (describe_sends h)
  | setup => exact quiet (setup_sends h)
  | play => exact quiet (command_sends (fun _ _ => .other (.inl rfl) rfl) (deref_ok h))
  | pause => exact quiet (command_sends (fun _ _ => .other (.inr (.inl rfl)) rfl) (deref_ok h))
  | teardown => exact quiet (command_sends (fun _ _ => .other (.inr (.inr rfl)) rfl) (deref_ok h))
  | keepAlive due => exact quiet (keepAlive_sends h)
  | item i =>
    cases i with
    | frame ch p => injection h with h; injection h with h _; subst h; rfl
    | response rsp =>
      have hfind := (inv_reachable hr).find rsp.cseq
      cases hf : s.find rsp.cseq with
      | none =>
        have h : handleRtsp w { s with out := .got rsp :: s.out } rsp = .ok (s', e) := h
        unfold handleRtsp at h
        rw [show ({ s with out := .got rsp :: s.out } : Sess).find rsp.cseq = none from hf] at h
        injection h with h; injection h with h _; subst h
        simp only [retries, answerable]
        rw [if_neg (fun hx => hx.2.1 (by rw [← hfind, hf]))]; rfl
      | some req =>
        by_cases h401 : rsp.statusCode = 401
        · have h : handleRtsp w { s with out := .got rsp :: s.out } rsp = .ok (s', e) := h
          unfold handleRtsp at h
          rw [show ({ s with out := .got rsp :: s.out } : Sess).find rsp.cseq = some req from hf] at h
          dsimp only at h
          rw [if_pos h401] at h
          unfold retry authorize at h
          dsimp only [Sess.remove] at h
          cases hd : newDigest s.baseURI (rsp.header.get b!"WWW-Authenticate") with
          | error x =>
            rw [hd] at h; injection h with h; injection h with h _; subst h
            simp only [retries, answerable]
            rw [if_neg (fun hx => by have := hx.2.2; rw [hd] at this; cases this)]; rfl
          | ok d =>
            rw [hd] at h
            have hcount : answerable s.baseURI (.got rsp :: s.out) = answerable s.baseURI s.out + 1 := by
              simp only [answerable]
              rw [if_pos ⟨h401, by rw [← hfind, hf]; simp, by rw [hd]; rfl⟩]
            cases hus : s.user with
            | none => exact absurd hus hu
            | some up =>
              obtain ⟨u, p⟩ := up
              rw [hus] at h
              dsimp only at h
              cases hau : authenticate w.md5 (w.rnd (.got rsp :: s.out)) d u p with
              | error p => rw [hau] at h; cases h
              | ok r =>
                obtain ⟨f, d1⟩ := r
                rw [hau] at h
                dsimp only at h
                unfold callAuth at h
                dsimp only [pure, Except.pure] at h
                cases hca : authCall w.md5 f d1 req.verb [] with
                | error p => rw [hca] at h; cases h
                | ok r =>
                  obtain ⟨a, d2⟩ := r
                  rw [hca] at h
                  dsimp only [enqueue] at h
                  unfold writeReq at h
                  split at h
                  · cases h
                  · dsimp only at h
                    have fin : ∀ q res, s'.out = .sent true q res :: .got rsp :: s.out →
                        retries s'.out + answerable s.baseURI s.out = retries s.out + answerable s.baseURI s'.out := fun q res ho => by
                      rw [ho]
                      show retries s.out + 1 + _ = _ + answerable s.baseURI (.got rsp :: s.out)
                      rw [hcount]; omega
                    split at h <;> (injection h with h; injection h with h _; subst h; exact fin _ _ rfl)
        · obtain ⟨t, h1, h2⟩ := handle_took hf h401 h
          rw [sends_retries h2, sends_challenges h2]
          cases h1 with
          | answered hc hq hs ho => rw [ho]; simp only [retries, answerable]; rw [if_neg (fun hx => h401 hx.1)]; rfl
          | granted st h200 hst hc hq hs ho => rw [ho]; simp only [retries, answerable]; rw [if_neg (fun hx => h401 hx.1)]; rfl

/-- **C60**, exactly: with credentials in the address, in every history requests are sent again exactly as often as the server refuses a pending request
with a challenge that can be answered. Nothing else bounds it. -/
theorem C60_exact (w : World) (uri : Bytes) (proto : Proto) (user password : Bytes) (ops : List Op) (hop : ∀ op ∈ ops, ¬ Opens op) (s : Sess)
    (h : run w newSession (.open_ uri proto (some (user, password)) :: ops) = .ok s) : retries s.out = answerable uri s.out := by
  have key : ∀ (ops : List Op) (s s' : Sess), Reachable w s → (∀ op ∈ ops, ¬ Opens op) → s.user ≠ none → s.baseURI = uri → run w s ops = .ok s' →
      retries s.out = answerable uri s.out → retries s'.out = answerable uri s'.out := by
    intro ops
    induction ops with
    | nil => intro s s' _ _ _ _ h hx; injection h with h; subst h; exact hx
    | cons op ops ih =>
      intro s s' hr hop hu hb h hx
      unfold run at h
      cases hs : step w s op with
      | error p => rw [hs] at h; cases h
      | ok r =>
        obtain ⟨t, e⟩ := r
        rw [hs] at h
        have hop1 := hop op (by simp)
        have hst := step_static hop1 hs
        have := step_challenges hr hu hop1 hs
        rw [hb] at this
        exact ih t s' (reachable_step hr hs) (fun o ho => hop o (by simp [ho])) (by rw [hst.2.2.2]; exact hu) (by rw [hst.2.2.1]; exact hb) h (by omega)
  exact key (.options :: ops) (dialled uri proto (some (user, password)) []) s ⟨[.dial uri proto (some (user, password))], rfl⟩ (fun op ho => by
    rcases List.mem_cons.1 ho with rfl | ho
    · exact id
    · exact hop op ho) (by simp [dialled]) rfl h rfl

/-- Three refusals, one of a request that is not pending and one with a challenge of an unknown kind: one request is sent again. -/
example : ∃ s, run demoWorld newSession [demoOpen, demo401 1, demo401 7, demoGot 1 401 [(b!"Www-Authenticate", b!"Bearer x")] none] = .ok s ∧
    refusals s.out = 3 ∧ retries s.out = 1 ∧ answerable b!"rtsp://h/x" s.out = 1 := by
  refine ⟨_, rfl, ?_⟩
  decide +kernel

end Ouro
