import Verif.Props.Authorized
import Verif.Props.Message
import Verif.Lemmas.SetupAll
/-! # C97: several challenges -/
namespace Ouro
open Spec

theorem opened_user {w : World} {s : Sess} {uri : Bytes} {proto : Proto} {user : Option (Bytes × Bytes)} {ops : List Op} (hno : NoOpen ops)
    (h : run w newSession (.open_ uri proto user :: ops) = .ok s) : s.baseURI = uri ∧ s.user = user := by
  unfold run at h
  cases hs : step w newSession (.open_ uri proto user) with
  | error p => rw [hs] at h; cases h
  | ok r =>
    obtain ⟨t, e⟩ := r
    rw [hs] at h
    have h1 := run_static ops (fun op ho => hno op ho) h
    have hs : command w { newSession with opened := true, baseURI := uri, proto := proto, user := user } verbOptions uri [] = .ok (t, e) := hs
    have h2 := command_static hs
    exact ⟨h1.2.2.1.trans h2.2.2.1, h1.2.2.2.trans h2.2.2.2⟩

/-- C97, what the code does: of several challenges the one in the last WWW-Authenticate line of the response counts, whatever the letter case of its name and
whatever the other lines say. Required: the response is well-formed and has its body in the buffer (C50). -/
theorem C97_last_partial (w : World) (uri : Bytes) (proto : Proto) (user : Option (Bytes × Bytes)) (ops : List Op) (s : Sess) (hno : NoOpen ops)
    (hrun : run w newSession (.open_ uri proto user :: ops) = .ok s) (t : Sent) (ht : t.WF) (hlen : t.body.length ≤ 2048) (h401 : t.code = 401)
    (cseq : Nat) (hseq : cseq < 2 ^ 63) (hc : t.value b!"CSeq" = some (natDigits cseq)) (req : Request) (hp : pending cseq s.out = some req)
    (challenge : Bytes) (hch : t.value b!"WWW-Authenticate" = some challenge) (r : Rdr) (rest : List Ev) (he : r.err = none) (hr : r.evs = t.text.map .byte ++ rest) :
    ∃ rsp r', unpackRsp r = (.ok rsp, r') ∧ r'.err = none ∧ r'.evs = rest ∧ ∀ (s' : Sess) (e : Option SErr) (a : Bytes),
      step w s (.item (.response rsp)) = .ok (s', e) → credentials w { s with out := .got rsp :: s.out } req.verb challenge = some a →
      ∃ again res, s'.out = .sent true again res :: .got rsp :: s.out ∧ again.verb = req.verb ∧ again.uri = req.uri ∧ again.auth = a := by
  obtain ⟨rsp, r', h1, h2, _, h4, _, _, h7, h8, h9⟩ := C50_response_partial t ht hlen cseq hseq hc r rest he hr
  have hget : rsp.header.get b!"WWW-Authenticate" = challenge := by
    rw [h7 b!"WWW-Authenticate" ⟨by decide, by decide⟩, hch]; rfl
  refine ⟨rsp, r', h1, h8, h9, ?_⟩
  intro s' e a hs ha
  obtain ⟨again, res, g1, g2, g3, _, g5, _⟩ := C58_exact w s s' ⟨_, hrun⟩ rsp req e (by rw [h4]; exact hp) (by rw [h2, h401]; rfl) a (by rw [hget]; exact ha) hs
  exact ⟨again, res, g1, g2, g3, g5⟩

/-- C97 fails whenever a server that offers Digest names Basic last: the request that is sent again has the password in clear. -/
theorem C97_basic_refuted (w : World) (uri : Bytes) (proto : Proto) (u p : Bytes) (ops : List Op) (s : Sess) (hno : NoOpen ops)
    (hrun : run w newSession (.open_ uri proto (some (u, p)) :: ops) = .ok s) (t : Sent) (ht : t.WF) (hlen : t.body.length ≤ 2048) (h401 : t.code = 401)
    (cseq : Nat) (hseq : cseq < 2 ^ 63) (hc : t.value b!"CSeq" = some (natDigits cseq)) (req : Request) (hp : pending cseq s.out = some req)
    (ps : List Param) (hne : ps ≠ []) (hps : ∀ p ∈ ps, p.WF) (hl : ∀ p, ps.getLast? = some p → p.after = []) (hn : lastValue .nonce ps = none)
    (hch : t.value b!"WWW-Authenticate" = some (b!"Basic " ++ paramsText ps))
    (r : Rdr) (rest : List Ev) (he : r.err = none) (hr : r.evs = t.text.map .byte ++ rest) :
    ∃ rsp r', unpackRsp r = (.ok rsp, r') ∧ r'.err = none ∧ r'.evs = rest ∧ ∀ (s' : Sess) (e : Option SErr),
      step w s (.item (.response rsp)) = .ok (s', e) →
      ∃ again res, s'.out = .sent true again res :: .got rsp :: s.out ∧ again.verb = req.verb ∧ again.uri = req.uri ∧
        again.auth = b!"Basic " ++ b64Encode (u ++ b!":" ++ p) := by
  obtain ⟨rsp, r', h1, h2, h3, h4⟩ := C97_last_partial w uri proto _ ops s hno hrun t ht hlen h401 cseq hseq hc req hp _ hch r rest he hr
  refine ⟨rsp, r', h1, h2, h3, fun s' e hs => h4 s' e _ hs ?_⟩
  obtain ⟨hbase, huser⟩ := opened_user hno hrun
  obtain ⟨d, e1, e2, _⟩ := (C41_parsed_partial uri [] [] true ps hne hps hl (by simp) (by simp)).2 (.inr (by rw [hn]; rfl))
  simp only [if_true, List.append_nil, List.nil_append] at e1
  unfold credentials
  dsimp only
  rw [hbase, huser, e1]
  dsimp only
  unfold authenticate
  rw [if_pos e2, colonnade_ok, go_ok_bind, go_pure]
  dsimp only [authCall, pure, Except.pure]
  simp [colons]

/-- A response with two challenges, Digest first. -/
def demoTwo : Sent := ⟨401, b!"Unauthorized", [⟨b!"CSeq", b!" ", b!"1"⟩, ⟨b!"WWW-Authenticate", b!" ", b!"Digest realm=\"r\", nonce=\"n\""⟩,
  ⟨b!"WWW-Authenticate", b!" ", b!"Basic realm=\"r\""⟩], []⟩

/-- It meets the hypotheses, and the session sends the password in clear. -/
example : demoTwo.value b!"CSeq" = some (natDigits 1) ∧
    demoTwo.value b!"WWW-Authenticate" = some (b!"Basic " ++ paramsText [{ name := .realm, written := b!"realm", value := b!"r", quoted := true }]) ∧
    lastValue .nonce [({ name := .realm, written := b!"realm", value := b!"r", quoted := true } : Param)] = none ∧
    (match unpackRsp ⟨[], none, demoTwo.text.map .byte⟩ with
      | (.ok rsp, _) => (match run demoWorld newSession [demoOpen, .item (.response rsp)] with
        | .ok s => (match s.out with | .sent true q _ :: _ => decide (q.auth = b!"Basic " ++ b64Encode b!"u:p") | _ => false)
        | .error _ => false)
      | _ => false) = true := ⟨by decide, by decide, by decide, by decide +kernel⟩

/-- In the other order Digest is used. -/
example : (match unpackRsp ⟨[], none, (Sent.text ⟨401, b!"Unauthorized", [⟨b!"CSeq", b!" ", b!"1"⟩,
      ⟨b!"WWW-Authenticate", b!" ", b!"Basic realm=\"r\""⟩, ⟨b!"WWW-Authenticate", b!" ", b!"Digest realm=\"r\", nonce=\"n\""⟩], []⟩).map .byte⟩ with
    | (.ok rsp, _) => (match run demoWorld newSession [demoOpen, .item (.response rsp)] with
      | .ok s => (match s.out with | .sent true q _ :: _ => decide (b!"Digest username=\"u\"" <+: q.auth) | _ => false)
      | .error _ => false)
    | _ => false) = true := by decide +kernel

/-- C97 fails when both challenges are in one line, as RFC 2617, 3.2.1 allows: none is answered. -/
theorem C97_one_line_refuted (uri : Bytes) : newDigest uri b!"Digest realm=\"r\", nonce=\"n\", Basic realm=\"r\"" = .error .malformed ∧
    newDigest uri b!"Basic realm=\"r\", Digest realm=\"r\", nonce=\"n\"" = .error .malformed := ⟨rfl, rfl⟩

end Ouro
