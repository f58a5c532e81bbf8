import Verif.Props.Strongest
import Verif.Spec.Offers
/-! # C97: which of several challenges is answered -/
namespace Ouro
open Spec

theorem find_last {α : Type} (p : α → Bool) : ∀ l : List α, l.reverse.find? p = (l.filter p).getLast? := by
  intro l
  rw [← List.head?_reverse, ← List.filter_reverse, List.head?_filter]

/-- The value of the header is that of the last line of the name. -/
theorem offers_value {t : Sent} {os : List Offer} (h : Offers t os) : t.value b!"WWW-Authenticate" = os.getLast?.map Offer.text := by
  unfold Sent.value
  rw [find_last, ← List.getLast?_map, h, List.getLast?_map]

theorem sent_digest (md5 : Bytes → Bytes) (rnd : Bytes) (d : Digest) (user response : Bytes) : b!"Digest " <+: sent md5 rnd d user response := by
  unfold sent authorization
  simp only [List.append_assoc]
  exact ⟨_, rfl⟩

theorem offer_credentials (w : World) (s : Sess) (u p verb : Bytes) (hu : s.user = some (u, p)) (o : Offer) (ho : o.WF) :
    ∃ a, credentials w s verb o.text = some a ∧ (b!"Digest " <+: a ↔ o.basic = false) ∧
      (a = b!"Basic " ++ b64Encode (u ++ b!":" ++ p) ↔ o.basic = true) := by
  obtain ⟨d, e1, e2, _⟩ := (C41_parsed_partial s.baseURI [] [] o.basic o.params ho.some ho.params ho.last (by simp) (by simp)).2 (.inl ho.known)
  rw [List.append_nil, List.nil_append] at e1
  have e1 : newDigest s.baseURI o.text = .ok d := e1
  unfold credentials
  rw [hu, e1]
  dsimp only
  cases hb : o.basic with
  | true =>
    rw [hb] at e2
    unfold authenticate
    rw [if_pos e2, colonnade_ok, go_ok_bind, go_pure]
    dsimp only [authCall, pure, Except.pure]
    refine ⟨_, rfl, ⟨fun h => ?_, fun h => by cases h⟩, ⟨fun _ => rfl, fun _ => by simp [colons]⟩⟩
    obtain ⟨x, hx⟩ := h
    have hx : some (68 : UInt8) = some 66 := congrArg List.head? hx
    exact absurd hx (by decide)
  | false =>
    rw [hb] at e2
    obtain ⟨d', h1, h2⟩ := authenticate_digest w.md5 (w.rnd s.out) u p d e2 (newDigest_init e1).2
    obtain ⟨d'', h3, _⟩ := authCall_digest w.md5 (w.rnd s.out) u p d d' _ h2 verb []
    rw [h1]
    dsimp only
    rw [h3]
    refine ⟨_, rfl, ⟨fun _ => rfl, fun _ => ?_⟩, ⟨fun h => ?_, fun h => by cases h⟩⟩
    · exact sent_digest _ _ _ _ _
    · obtain ⟨x, hx⟩ := sent_digest w.md5 (w.rnd s.out) d u _
      rw [h] at hx
      have hx : some (68 : UInt8) = some 66 := congrArg List.head? hx
      exact absurd hx (by decide)

/-- **C97**, exact: of any challenges, in any order, each in a line of its own, the last one is answered; so the request is sent again with Digest
credentials if and only if the last challenge is a Digest one, and with the password in clear if and only if it is a Basic one. -/
theorem C97_iff (w : World) (uri : Bytes) (proto : Proto) (u p : Bytes) (ops : List Op) (s : Sess) (hno : NoOpen ops)
    (hrun : run w newSession (.open_ uri proto (some (u, p)) :: ops) = .ok s) (t : Sent) (ht : t.WF) (hlen : t.body.length ≤ 2048) (h401 : t.code = 401)
    (cseq : Nat) (hseq : cseq < 2 ^ 63) (hc : t.value b!"CSeq" = some (natDigits cseq)) (req : Request) (hp : pending cseq s.out = some req)
    (os : List Offer) (hos : Offers t os) (hne : os ≠ []) (hwf : ∀ o ∈ os, o.WF)
    (r : Rdr) (rest : List Ev) (he : r.err = none) (hr : r.evs = t.text.map .byte ++ rest) :
    ∃ rsp r', unpackRsp r = (.ok rsp, r') ∧ r'.err = none ∧ r'.evs = rest ∧ ∀ (s' : Sess) (e : Option SErr), step w s (.item (.response rsp)) = .ok (s', e) →
      ∃ again res, s'.out = .sent true again res :: .got rsp :: s.out ∧ again.verb = req.verb ∧ again.uri = req.uri ∧
        (b!"Digest " <+: again.auth ↔ ∃ o, os.getLast? = some o ∧ o.basic = false) ∧
        (again.auth = b!"Basic " ++ b64Encode (u ++ b!":" ++ p) ↔ ∃ o, os.getLast? = some o ∧ o.basic = true) := by
  cases hl : os.getLast? with
  | none => exact absurd (List.getLast?_eq_none_iff.1 hl) hne
  | some o =>
    have hch : t.value b!"WWW-Authenticate" = some o.text := by rw [offers_value hos, hl]; rfl
    obtain ⟨rsp, r', h1, h2, h3, h4⟩ := C97_last_partial w uri proto _ ops s hno hrun t ht hlen h401 cseq hseq hc req hp _ hch r rest he hr
    obtain ⟨_, huser⟩ := opened_user hno hrun
    obtain ⟨a, c1, c2, c3⟩ := offer_credentials w { s with out := .got rsp :: s.out } u p req.verb huser o (hwf o (List.mem_of_getLast? hl))
    refine ⟨rsp, r', h1, h2, h3, fun s' e hs => ?_⟩
    obtain ⟨again, res, g1, g2, g3, g4⟩ := h4 s' e a hs c1
    refine ⟨again, res, g1, g2, g3, ?_, ?_⟩
    · rw [g4, c2]
      exact ⟨fun h => ⟨o, rfl, h⟩, fun ⟨o', e', h⟩ => by (injection e' with e'; rw [e']; exact h)⟩
    · rw [g4, c3]
      exact ⟨fun h => ⟨o, rfl, h⟩, fun ⟨o', e', h⟩ => by (injection e' with e'; rw [e']; exact h)⟩

/-- The two challenges of `demoTwo`, Digest first. -/
def demoOffers : List Offer :=
  [⟨false, [{ name := .realm, written := b!"realm", value := b!"r", quoted := true },
    { name := .nonce, written := b!"nonce", value := b!"n", quoted := true, before := b!" " }]⟩,
   ⟨true, [{ name := .realm, written := b!"realm", value := b!"r", quoted := true }]⟩]

/-- They meet the hypotheses of `C97_iff`; the rest of them are shown beside `C97_basic_refuted`. -/
example : Offers demoTwo demoOffers ∧ demoOffers ≠ [] ∧ ∀ o ∈ demoOffers, o.WF := by
  refine ⟨by (unfold Offers; decide), by decide, ?_⟩
  intro o ho
  rcases List.mem_cons.1 ho with rfl | ho
  · exact ⟨by decide, by decide, fun p hp => by (injection hp with hp; subst hp; rfl), by decide⟩
  · rcases List.mem_singleton.1 ho with rfl
    exact ⟨by decide, by decide, fun p hp => by (injection hp with hp; subst hp; rfl), by decide⟩

end Ouro
