import Verif.Lemmas.Session
/-! # The invariant of sessions -/
namespace Ouro
open Spec

/-- A property of an event and what was before it, for all events of a trace. -/
def Past (P : Out → List Out → Prop) : List Out → Prop
  | [] => True
  | o :: b => P o b ∧ Past P b

theorem Past.at {P : Out → List Out → Prop} {a b : List Out} {o : Out} (h : Past P (a ++ o :: b)) : P o b := by
  induction a with
  | nil => exact h.1
  | cons x a ih => exact ih h.2

theorem Past.tail {P : Out → List Out → Prop} {a b : List Out} {o : Out} (h : Past P (a ++ o :: b)) : Past P b := by
  induction a with
  | nil => exact h.2
  | cons x a ih => exact ih h.2

/-- What is known of the events. -/
def Fact : Out → List Out → Prop
  | .sent false req _, b => req.session = sessionId b ∧ Shape req ∧ req.cseq = (newSeqs b).length + 1
  | .sent true req _, b => req.session = sessionId b ∧ Shape req ∧ req.cseq = (newSeqs b).length
  | .notified st, b => st ≠ 1 → ∃ rsp b' req, b = .got rsp :: b' ∧ pending rsp.cseq b' = some req ∧ rsp.statusCode = 200 ∧ stageAfter req.verb = some st
  | _, _ => True

/-- The invariant. -/
structure Inv (s : Sess) : Prop where
  find : ∀ c, s.find c = pending c s.out
  session : s.session = sessionId s.out
  seqs : (newSeqs s.out).length = s.cseq
  range : ∀ c req, pending c s.out = some req → 1 ≤ c ∧ c ≤ s.cseq ∧ Shape req ∧ req.cseq = c
  past : Past Fact s.out

theorem inv_new : Inv newSession :=
  ⟨fun _ => rfl, rfl, rfl, fun c req h => by (cases h), trivial⟩

theorem find_of_queue {s : Sess} {q : List (Int × Request)} (h : s.queue = q) (k : Int) : s.find k = (q.find? fun e => e.1 = k).map (·.2) := by
  unfold Sess.find; rw [h]

theorem sessionId_got {s : Sess} {rsp : Response} {req : Request} (hp : pending rsp.cseq s.out = some req) (h401 : rsp.statusCode ≠ 401)
    (hs : s.session = sessionId s.out) : sessionId (.got rsp :: s.out) = learned s.session (rsp.header.get b!"Session") := by
  unfold learned
  by_cases hv : rsp.header.get b!"Session" ≠ []
  · rw [if_pos hv, sessionId, if_pos ⟨by rw [hp]; rfl, h401, hv⟩]
  · rw [if_neg hv, sessionId, if_neg (fun h => hv h.2.2), hs]

theorem inv_got {s s' : Sess} (h : Inv s) {rsp : Response} {req : Request} (hf : s.find rsp.cseq = some req)
    (hc : s'.cseq = s.cseq) (hq : s'.queue = s.queue.filter fun e => e.1 ≠ rsp.cseq) (hs : s'.session = sessionId (.got rsp :: s.out))
    (ho : s'.out = .got rsp :: s.out) : Inv s' := by
  refine ⟨fun c => ?_, by rw [hs, ho], by rw [ho, hc]; exact h.seqs, fun c r hp => ?_, by rw [ho]; exact ⟨trivial, h.past⟩⟩
  · rw [find_of_queue hq, find_filter, ho, pending]
    by_cases hk : c = rsp.cseq
    · rw [if_pos hk, if_pos hk.symm]
    · rw [if_neg hk, if_neg (fun e => hk e.symm)]; exact h.find c
  · rw [ho, pending] at hp
    split at hp
    · cases hp
    · rw [hc]; exact h.range c r hp

theorem shape_auth {req : Request} (h : Shape req) (a : Bytes) (c : Int) (x : Bytes) : Shape { req with auth := a, cseq := c, session := x } := by
  cases h with
  | options h1 h2 => exact .options h1 h2
  | keepAlive h1 h2 => exact .keepAlive h1 h2
  | describe h1 h2 => exact .describe h1 h2
  | setup h1 h2 => exact .setup h1 h2
  | other h1 h2 => exact .other h1 h2

/-- A request enters the queue. -/
theorem inv_sent {s s' : Sess} (h : Inv s) {r : Bool} {req : Request} {res : IORes} (hseq : req.cseq = s'.cseq) (h1 : 1 ≤ s'.cseq)
    (hle : s.cseq ≤ s'.cseq) (hses : req.session = s.session)
    (hsh : Shape req) (hq : s'.queue = insertReq s.queue req) (hs : s'.session = s.session) (ho : s'.out = .sent r req res :: s.out)
    (hr : (r = false ∧ s'.cseq = s.cseq + 1) ∨ (r = true ∧ s'.cseq = s.cseq)) : Inv s' := by
  refine ⟨fun c => ?_, ?_, ?_, fun c q hp => ?_, ?_⟩
  · rw [find_of_queue hq, find_insert, ho, pending]
    by_cases hk : req.cseq = c
    · rw [if_pos hk, if_pos hk]
    · rw [if_neg hk, if_neg hk]; exact h.find c
  · rw [hs, ho, h.session]; rfl
  · rw [ho]
    rcases hr with ⟨rfl, hr⟩ | ⟨rfl, hr⟩
    · show (newSeqs s.out).length + 1 = _; rw [h.seqs, hr]
    · show (newSeqs s.out).length = _; rw [h.seqs, hr]
  · rw [ho, pending] at hp
    split at hp
    · next hk =>
      injection hp with hp
      subst hp
      exact ⟨by omega, by omega, hsh, hk⟩
    · obtain ⟨a, b, c⟩ := h.range c q hp
      exact ⟨a, by omega, c⟩
  · rw [ho]
    refine ⟨?_, h.past⟩
    rcases hr with ⟨rfl, hr⟩ | ⟨rfl, hr⟩
    · exact ⟨hses.trans h.session, hsh, by rw [h.seqs, hseq, hr]; rfl⟩
    · exact ⟨hses.trans h.session, hsh, by rw [h.seqs, hseq, hr]⟩

theorem inv_prim {s s' : Sess} (hp : Prim s s') (h : Inv s) : Inv s' := by
  have keep : ∀ s' : Sess, s'.cseq = s.cseq → s'.queue = s.queue → s'.session = s.session → ∀ o, s'.out = o ++ s.out →
      (∀ x ∈ o, (∃ c p, x = .data c p) ∨ x = .notified stageReady ∨ (∃ k, x = .started k) ∨ (∃ rsp, x = .got rsp ∧ s.find rsp.cseq = none)) →
      Inv s' := by
    intro s' hc hq hs o ho hx
    have e1 : ∀ o : List Out, (∀ x ∈ o, (∃ c p, x = .data c p) ∨ x = .notified stageReady ∨ (∃ k, x = .started k) ∨ (∃ rsp, x = .got rsp ∧ s.find rsp.cseq = none)) →
        (∀ c, pending c (o ++ s.out) = pending c s.out) ∧ sessionId (o ++ s.out) = sessionId s.out ∧ newSeqs (o ++ s.out) = newSeqs s.out ∧ Past Fact (o ++ s.out) := by
      intro o
      induction o with
      | nil => intro _; exact ⟨fun _ => rfl, rfl, rfl, h.past⟩
      | cons x o ih =>
        intro hx
        obtain ⟨i1, i2, i3, i4⟩ := ih (fun y hy => hx y (by simp [hy]))
        rcases hx x (by simp) with ⟨c, p, rfl⟩ | rfl | ⟨k, rfl⟩ | ⟨rsp, rfl, hf⟩
        · exact ⟨i1, i2, i3, trivial, i4⟩
        · exact ⟨i1, i2, i3, fun hne => absurd rfl hne, i4⟩
        · exact ⟨i1, i2, i3, trivial, i4⟩
        · have hnone : pending rsp.cseq (o ++ s.out) = none := by rw [i1, ← h.find, hf]
          refine ⟨fun c => ?_, ?_, i3, trivial, i4⟩
          · rw [List.cons_append, pending]
            split
            · next hk => rw [← hk, ← i1, hnone]
            · exact i1 c
          · rw [List.cons_append, sessionId, if_neg (by rw [hnone]; simp)]
            exact i2
    obtain ⟨i1, i2, i3, i4⟩ := e1 o hx
    refine ⟨fun c => ?_, ?_, ?_, fun c r hp => ?_, ?_⟩
    · rw [find_of_queue hq, ho, i1]; exact h.find c
    · rw [hs, ho, i2]; exact h.session
    · rw [ho, i3, hc]; exact h.seqs
    · rw [ho, i1] at hp; rw [hc]; exact h.range c r hp
    · rw [ho]; exact i4
  cases hp with
  | quiet hc hq hs ho => exact keep s' hc hq hs [] ho (fun x hx => by (cases hx))
  | data ch p hc hq hs ho =>
    exact keep s' hc hq hs [.data ch p] ho (fun x hx => by rw [List.mem_singleton] at hx; exact .inl ⟨_, _, hx⟩)
  | ready k hc hq hs ho =>
    refine keep s' hc hq hs [.started k, .notified stageReady] ho (fun x hx => ?_)
    simp only [List.mem_cons, List.not_mem_nil, or_false] at hx
    rcases hx with rfl | rfl
    · exact .inr (.inr (.inl ⟨_, rfl⟩))
    · exact .inr (.inl rfl)
  | unknown rsp hf hc hq hs ho =>
    exact keep s' hc hq hs [.got rsp] ho (fun x hx => by rw [List.mem_singleton] at hx; exact .inr (.inr (.inr ⟨_, hx, hf⟩)))
  | refused rsp req hf h401 hc hq hs ho =>
    refine inv_got h hf hc hq ?_ ho
    rw [hs, sessionId, if_neg (fun x => x.2.1 h401)]; exact h.session
  | retried rsp req a res hf h401 hc hq hs ho =>
    have hp : pending rsp.cseq s.out = some req := by rw [← h.find, hf]
    have hr := h.range _ _ hp
    have h1 : Inv { s with queue := s.queue.filter (fun e => e.1 ≠ rsp.cseq), out := .got rsp :: s.out } := by
      refine inv_got h hf rfl rfl ?_ rfl
      show s.session = _
      rw [sessionId, if_neg (fun x => x.2.1 h401)]; exact h.session
    exact inv_sent h1 (r := true) (req := { req with auth := a, cseq := s.cseq, session := s.session }) (res := res)
      (by rw [hc]) (by omega) (by rw [hc]; exact Nat.le_refl _) rfl (shape_auth hr.2.2.1 a _ _) hq hs ho (.inr ⟨rfl, hc⟩)
  | answered rsp req hf h401 hc hq hs ho =>
    have hp : pending rsp.cseq s.out = some req := by rw [← h.find, hf]
    exact inv_got h hf hc hq (by rw [hs, sessionId_got hp h401 h.session]) ho
  | granted rsp req st hf h200 hst hc hq hs ho =>
    have hp : pending rsp.cseq s.out = some req := by rw [← h.find, hf]
    have h1 : Inv { s with queue := s.queue.filter (fun e => e.1 ≠ rsp.cseq), session := s'.session, out := .got rsp :: s.out } := by
      refine inv_got h hf rfl rfl ?_ rfl
      show s'.session = _
      rw [hs, sessionId_got hp (by rw [h200]; decide) h.session]
    refine ⟨fun c => ?_, ?_, ?_, fun c r hp => ?_, ?_⟩
    · rw [find_of_queue hq, ho]; exact h1.find c
    · rw [ho]; exact h1.session
    · rw [ho, hc]; exact h1.seqs
    · rw [ho] at hp; rw [hc]; exact h1.range c r hp
    · rw [ho]; exact ⟨fun _ => ⟨rsp, s.out, req, rfl, hp, h200, hst⟩, h1.past⟩
  | cmd req res hseq hses hsh hc hq hs ho =>
    exact inv_sent h (r := false) (by rw [hc, hseq]; rfl) (by omega) (by omega) hses hsh hq hs ho (.inl ⟨rfl, hc⟩)

theorem inv_prims {s s' : Sess} (hp : Prims s s') (h : Inv s) : Inv s' := hp.induct h (fun _ _ hp h => inv_prim hp h)

theorem inv_reachable {w : World} {s : Sess} (h : Reachable w s) : Inv s := inv_prims (reachable_prims h) inv_new

theorem newSeqs_le (a b : List Out) : (newSeqs b).length ≤ (newSeqs (a ++ b)).length := by
  induction a with
  | nil => exact Nat.le_refl _
  | cons x a ih =>
    cases x with
    | sent r req res =>
      cases r with
      | true => exact ih
      | false => exact Nat.le_succ_of_le ih
    | got => exact ih
    | notified => exact ih
    | started => exact ih
    | data => exact ih

/-- Pending requests have the number of some request sent. -/
theorem past_range (c : Int) (b : List Out) (h : Past Fact b) (hp : pending c b ≠ none) : c ≤ (newSeqs b).length := by
  induction b with
  | nil => exact absurd rfl hp
  | cons x b ih =>
    cases x with
    | sent r req res =>
      rw [pending] at hp
      cases r with
      | true =>
        have h3 : req.cseq = (newSeqs b).length := h.1.2.2
        show c ≤ (newSeqs b).length
        split at hp
        · omega
        · exact ih h.2 hp
      | false =>
        have h3 : req.cseq = (newSeqs b).length + 1 := h.1.2.2
        show c ≤ ((newSeqs b).length + 1 : Nat)
        split at hp
        · omega
        · have := ih h.2 hp
          omega
    | got rsp =>
      rw [pending] at hp
      split at hp
      · exact absurd rfl hp
      · exact ih h.2 hp
    | notified => exact ih h.2 hp
    | started => exact ih h.2 hp
    | data => exact ih h.2 hp

end Ouro
