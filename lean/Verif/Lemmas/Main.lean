import Verif.Spec.Main
import Verif.Lemmas.SetupAll
/-! # Lemmas about the command line client: what one response can do to the session -/
namespace Ouro
open Spec

/-- Requests the session makes itself. -/
def Own (v : Bytes) : Prop := v = b!"OPTIONS" ∨ v = b!"DESCRIBE" ∨ v = b!"SETUP"

instance (v : Bytes) : Decidable (Own v) := by unfold Own; infer_instance

/-- What a response does. -/
inductive Effect (s s' : Sess) (rsp : Response) : Prop
  | plain (own : List Out) (ho : s'.out = own ++ .got rsp :: s.out) (hown : ∀ o ∈ own, ∃ req res, o = .sent false req res ∧ Own req.verb)
      (hst : s'.stage = s.stage) (hq : ∀ v, ¬ Own v → cnt v s'.queue ≤ cnt v s.queue)
      (hset : cnt b!"DESCRIBE" s.queue = 0 → s.stage ≠ 0 → own = [] ∧ ∀ v, cnt v s'.queue ≤ cnt v s.queue)
  | retried (req : Request) (res : IORes) (ho : s'.out = .sent true req res :: .got rsp :: s.out) (hst : s'.stage = s.stage)
      (hq : ∀ v, cnt v s'.queue ≤ cnt v s.queue) (hin : 1 ≤ cnt req.verb s.queue)
  | granted (st : Nat) (v : Bytes) (ho : s'.out = .notified st :: .got rsp :: s.out) (hst : s'.stage = st) (hv : stageAfter v = some st)
      (hc : cnt v s'.queue + 1 ≤ cnt v s.queue) (hq : ∀ v, cnt v s'.queue ≤ cnt v s.queue)
  | ready (sinks : List (UInt8 × Int)) (ho : s'.out = .started sinks :: .notified 1 :: .got rsp :: s.out) (hst : s'.stage = 1)
      (hq : ∀ v, cnt v s'.queue ≤ cnt v s.queue) (hin : 1 ≤ cnt b!"SETUP" s.queue) (hall : s'.feeds.length ≤ s'.feedidx)

/-- Commands of the session itself: what they add. -/
structure Adds (s s' : Sess) : Prop where
  out : ∃ own, s'.out = own ++ s.out ∧ ∀ o ∈ own, ∃ req res, o = .sent false req res ∧ Own req.verb
  stage : s'.stage = s.stage
  queue : ∀ v, ¬ Own v → cnt v s'.queue ≤ cnt v s.queue

theorem Adds.refl (s : Sess) : Adds s s := ⟨⟨[], rfl, fun o h => by (cases h)⟩, rfl, fun _ _ => Nat.le_refl _⟩

theorem Adds.trans {s t u : Sess} (h1 : Adds s t) (h2 : Adds t u) : Adds s u := by
  obtain ⟨a, ha, ha'⟩ := h1.out
  obtain ⟨b, hb, hb'⟩ := h2.out
  refine ⟨⟨b ++ a, by rw [hb, ha, List.append_assoc], fun o h => ?_⟩, h2.stage.trans h1.stage, fun v hv => Nat.le_trans (h2.queue v hv) (h1.queue v hv)⟩
  rcases List.mem_append.1 h with h | h
  · exact hb' o h
  · exact ha' o h

theorem command_adds {w : World} {s s' : Sess} {verb uri : Bytes} {hs : Header} {e : Option SErr} (hv : Own verb)
    (h : command w s verb uri hs = .ok (s', e)) : Adds s s' := by
  rcases command_out h with ⟨_, rfl, _⟩ | ⟨_, _, a, x, res, rfl, _⟩
  · exact .refl _
  · refine ⟨⟨[_], rfl, fun o ho => ?_⟩, rfl, fun v hn => ?_⟩
    · rw [List.mem_singleton] at ho; exact ⟨_, _, ho, hv⟩
    · have := cnt_insert v s.queue ⟨verb, s.cseq + 1, uri, a, s.session, hs.foldl (fun h e => h.set e.1 e.2) []⟩
      rw [if_neg (show ¬ verb = v from fun e => hn (e ▸ hv))] at this
      exact this

theorem setupLoop_adds {w : World} (fs : List Feed) : ∀ {done : List Feed} {s s' : Sess} {e : Option SErr}, setupLoop w done fs s = .ok (s', e) → Adds s s' := by
  induction fs with
  | nil => intro done s s' e h; injection h with h; injection h with h _; subst h; exact .refl _
  | cons f fs ih =>
    intro done s s' e h
    unfold setupLoop at h
    cases hc : command w s verbSetup (setupURI s.baseURI f.media.control) [(b!"Transport", f.transportHeader)] with
    | error p => rw [hc] at h; cases h
    | ok r =>
      obtain ⟨t, x⟩ := r
      have hp : Adds s t := command_adds (.inr (.inr rfl)) hc
      rw [hc] at h
      cases x with
      | some x => injection h with h; injection h with h _; subst h; exact hp
      | none =>
        have i := ih h
        exact hp.trans ⟨i.out, i.stage, i.queue⟩

/-- The request an answer is for has been taken from the queue: then the session can add requests. -/
theorem Effect.of_adds {s t s' : Sess} {rsp : Response} (h : Adds t s') (ho : t.out = .got rsp :: s.out) (hst : t.stage = s.stage)
    (hq : t.queue = s.queue.filter fun e => e.1 ≠ rsp.cseq) (hset : ¬ (cnt b!"DESCRIBE" s.queue = 0 ∧ s.stage ≠ 0)) : Effect s s' rsp := by
  obtain ⟨own, h1, h2⟩ := h.out
  refine .plain own (by rw [h1, ho]) h2 (h.stage.trans hst) (fun v hv => ?_) (fun a b => absurd ⟨a, b⟩ hset)
  have := h.queue v hv
  rw [hq] at this
  exact Nat.le_trans this (cnt_filter v _ _)

/-- Nothing happens but that the answer is taken. -/
theorem Effect.taken {s s' : Sess} {rsp : Response} (ho : s'.out = .got rsp :: s.out) (hst : s'.stage = s.stage)
    (hq : s'.queue = s.queue.filter fun e => e.1 ≠ rsp.cseq) : Effect s s' rsp := by
  have h : ∀ v, cnt v s'.queue ≤ cnt v s.queue := fun v => by rw [hq]; exact cnt_filter v _ _
  exact .plain [] ho (fun o h => by (cases h)) hst (fun v _ => h v) (fun _ _ => ⟨rfl, h⟩)

theorem Effect.ofReady {s t : Sess} {rsp : Response} (ho : t.out = .got rsp :: s.out) (hst : t.stage = s.stage)
    (hq : t.queue = s.queue.filter fun e => e.1 ≠ rsp.cseq) (hin : 1 ≤ cnt b!"SETUP" s.queue) : Effect s (checkReady t) rsp := by
  unfold checkReady
  split
  · next hge =>
    refine .ready t.sinks (by show _ :: _ :: t.out = _; rw [ho]; rfl) rfl (fun v => ?_) hin hge
    show cnt v t.queue ≤ _
    rw [hq]; exact cnt_filter v _ _
  · exact .taken ho hst hq

theorem response_effect {w : World} {s s' : Sess} {rsp : Response} {e : Option SErr} (hs : handleItem w s (.response rsp) = .ok (s', e)) : Effect s s' rsp := by
  have hs : handleRtsp w { s with out := .got rsp :: s.out } rsp = .ok (s', e) := hs
  unfold handleRtsp at hs
  cases hf : s.find rsp.cseq with
  | none =>
    rw [show ({ s with out := .got rsp :: s.out } : Sess).find rsp.cseq = none from hf] at hs
    injection hs with hs; injection hs with hs _; subst hs
    exact .plain [] rfl (fun o h => by (cases h)) rfl (fun _ _ => Nat.le_refl _) (fun _ _ => ⟨rfl, fun _ => Nat.le_refl _⟩)
  | some req =>
    rw [show ({ s with out := .got rsp :: s.out } : Sess).find rsp.cseq = some req from hf] at hs
    dsimp only at hs
    by_cases h401 : rsp.statusCode = 401
    · rw [if_pos h401] at hs
      rcases retry_out hs with ⟨x, rfl, _⟩ | ⟨a, x, res, rfl, _⟩
      · exact .taken rfl rfl rfl
      · generalize hreq : ({ req with auth := a, cseq := _, session := _ } : Request) = again
        have hv : again.verb = req.verb := by rw [← hreq]
        have key : ∀ v, cnt v (insertReq (s.queue.filter fun e => e.1 ≠ rsp.cseq) again) ≤ cnt v s.queue := by
          intro v
          have := cnt_insert v (s.queue.filter fun e => e.1 ≠ rsp.cseq) again
          rw [hv] at this
          by_cases hvv : req.verb = v
          · rw [if_pos hvv] at this
            have := cnt_found v s.queue rsp.cseq req hf hvv
            omega
          · rw [if_neg hvv] at this
            have := cnt_filter v s.queue rsp.cseq
            omega
        refine .retried again res rfl rfl key ?_
        rw [hv]
        have := cnt_found req.verb s.queue rsp.cseq req hf rfl
        omega
    · rw [if_neg h401, learnSession_eq] at hs
      dsimp only [Sess.remove] at hs
      have took : ∀ v, req.verb = v → cnt v (s.queue.filter fun e => e.1 ≠ rsp.cseq) + 1 ≤ cnt v s.queue := fun v hv => cnt_found v s.queue rsp.cseq req hf hv
      have grant : ∀ st, stageAfter req.verb = some st → Effect s (notify { s with queue := s.queue.filter (fun e => e.1 ≠ rsp.cseq), session := learned s.session (rsp.header.get b!"Session"), out := .got rsp :: s.out } st) rsp :=
        fun st hst => .granted st req.verb rfl rfl hst (took _ rfl) (fun v => cnt_filter v _ _)
      unfold answer at hs
      split at hs
      · split at hs
        · next hst =>
          have h1 : Adds _ s' := command_adds (.inr (.inl rfl)) (show command w _ verbDescribe _ _ = _ from deref_ok hs)
          exact .of_adds h1 rfl rfl rfl (fun h => h.2 hst)
        · injection hs with hs; injection hs with hs _; subst hs; exact .taken rfl rfl rfl
      · split at hs
        · next hv =>
          split at hs
          · split at hs
            · cases hs
            · have h1 : Adds _ s' := setupLoop_adds _ hs
              exact .of_adds h1 rfl rfl rfl (fun h => by have := took _ hv; have := h.1; unfold verbDescribe at *; omega)
          · injection hs with hs; injection hs with hs _; subst hs; exact .taken rfl rfl rfl
        · split at hs
          · next hv =>
            injection hs with hs; injection hs with hs _; subst hs
            split
            · exact grant 3 (by rw [hv]; rfl)
            · exact .taken rfl rfl rfl
          · split at hs
            · next hv =>
              injection hs with hs; injection hs with hs _; subst hs
              split
              · exact grant 2 (by rw [hv]; rfl)
              · exact .taken rfl rfl rfl
            · split at hs
              · next hv =>
                injection hs with hs; injection hs with hs _; subst hs
                split
                · exact grant 4 (by rw [hv]; rfl)
                · exact .taken rfl rfl rfl
              · split at hs
                · next hv =>
                  have k1 : 1 ≤ cnt b!"SETUP" s.queue := by have := took _ hv; unfold verbSetup at this; omega
                  unfold handleSetup at hs
                  split at hs
                  · split at hs
                    · cases hs
                    · next t x hsa =>
                      injection hs with hs; injection hs with hs _; subst hs
                      obtain ⟨_, g2, _, g4⟩ := setupAnswer_core _ hsa
                      obtain ⟨r1, _⟩ := setupAnswer_feeds _ hsa rfl
                      exact .taken g4 r1.1 g2
                    · next t hsa =>
                      injection hs with hs; injection hs with hs _; subst hs
                      obtain ⟨_, g2, _, g4⟩ := setupAnswer_core _ hsa
                      obtain ⟨r1, _⟩ := setupAnswer_feeds _ hsa rfl
                      exact .ofReady g4 r1.1 g2 k1
                  · injection hs with hs; injection hs with hs _; subst hs; exact .ofReady rfl rfl rfl k1
                · injection hs with hs; injection hs with hs _; subst hs; exact .taken rfl rfl rfl

/-- Once Ready has been reported there is nothing left to set up. -/
structure Settled (s : Sess) : Prop where
  setup : cnt b!"SETUP" s.queue = 0
  describe : cnt b!"DESCRIBE" s.queue = 0
  stage : s.stage ≠ 0

theorem ready_settled {w : World} {d : Nat} {s s' : Sess} {rsp : Response} {e : Option SErr} (inv : Inv s) (h : Counts d s)
    (hs : handleItem w s (.response rsp) = .ok (s', e)) (hst : s'.stage = 1) (hin : 1 ≤ cnt b!"SETUP" s.queue) (hall : s'.feeds.length ≤ s'.feedidx) :
    Settled s' := by
  obtain ⟨d', h', hd⟩ := counts_response inv h hs
  have hd1 : d = 1 := by
    rcases Nat.eq_zero_or_pos d with h0 | h0
    · have := (h.fresh h0).2.2; have := h.open_; omega
    · have := h.once; omega
  have hd2 := (hd hd1).1
  have a := h'.open_
  have b := h'.sent
  have c := h'.idx
  have f := h'.once
  exact ⟨by omega, by omega, by rw [hst]; decide⟩

end Ouro
