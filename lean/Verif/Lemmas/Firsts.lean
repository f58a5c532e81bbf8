import Verif.Spec.Firsts
import Verif.Lemmas.Amount
/-! # The requests of a session: each response leaves less to ask for -/
namespace Ouro
open Spec

/-! ## The size of a body -/

theorem readBytes_size {r r' : Rdr} {n : Nat} {b : Bytes} (h : r.readBytes n = (.ok b, r')) : b.length ≤ 2048 := by
  unfold Rdr.readBytes at h
  cases hq : r.peek n with
  | mk x r1 =>
    rw [hq] at h
    cases x with
    | error e => injection h with h; cases h
    | ok b1 =>
      obtain ⟨_, h2⟩ := peek_ok_len hq
      injection h with ha _
      injection ha with ha
      subst ha
      unfold Rdr.peek at hq
      dsimp only at hq
      generalize (if r.err = none then fillLoop (min n bufSize) r.buf r.net else r) = q at hq
      by_cases h1 : n > bufSize
      · rw [if_pos h1] at hq; injection hq with hq; cases hq
      · have e : bufSize = 2048 := rfl
        omega

theorem recv_body {r r' : Rdr} {rsp : Response} (h : recv r = (.ok (.response rsp), r')) : (rsp.body.getD []).length ≤ 2048 := by
  have hu : ∀ {r r' : Rdr} {rsp : Response}, unpackRsp r = (.ok rsp, r') → (rsp.body.getD []).length ≤ 2048 := by
    intro r r' rsp h
    unfold unpackRsp at h
    cases hl : r.readLine with
    | mk x r1 =>
      rw [hl] at h
      cases x with
      | error e => injection h with h; cases h
      | ok line =>
        dsimp only at h
        cases hs : statusLine b!"RTSP/1.0" line with
        | error e => rw [hs] at h; injection h with h; cases h
        | ok sc =>
          obtain ⟨status, code⟩ := sc
          rw [hs] at h
          dsimp only at h
          cases hq : headerLoop (r1.buf.length + r1.net.length + 1) r1 [] with
          | mk y r2 =>
            rw [hq] at h
            cases y with
            | error e => injection h with h; cases h
            | ok hd =>
              dsimp only at h
              split at h
              · split at h
                · injection h with h; cases h
                · rename_i hz
                  injection h with ha _
                  injection ha with ha
                  subst ha
                  exact readBytes_size hz
              · injection h with ha _
                injection ha with ha
                subst ha
                exact Nat.zero_le _
  unfold recv at h
  cases hp : r.peek 1 with
  | mk x r1 =>
    rw [hp] at h
    cases x with
    | error e => injection h with h; cases h
    | ok b =>
      dsimp only at h
      by_cases hb : b = [36]
      · rw [if_pos hb] at h; obtain ⟨_, _, e⟩ := recvFrame_frame h; cases e
      · rw [if_neg hb] at h
        cases hq : unpackRsp r1 with
        | mk y r2 =>
          rw [hq] at h
          cases y with
          | error e => injection h with h; cases h
          | ok rsp' =>
            injection h with ha _
            injection ha with ha
            injection ha with ha
            subst ha
            exact hu hq

/-! ## The session -/

/-- Nothing is asked for that is not paid for by an answer to OPTIONS or DESCRIBE. -/
structure Fewer (s s' : Sess) : Prop where
  options : firsts b!"OPTIONS" s'.out ≤ firsts b!"OPTIONS" s.out
  describe : firsts b!"DESCRIBE" s'.out + cnt b!"OPTIONS" s'.queue ≤ firsts b!"DESCRIBE" s.out + cnt b!"OPTIONS" s.queue
  setup : firsts b!"SETUP" s'.out + 204 * (cnt b!"DESCRIBE" s'.queue + cnt b!"OPTIONS" s'.queue) ≤
    firsts b!"SETUP" s.out + 204 * (cnt b!"DESCRIBE" s.queue + cnt b!"OPTIONS" s.queue)

theorem Fewer.refl (s : Sess) : Fewer s s := ⟨Nat.le_refl _, Nat.le_refl _, Nat.le_refl _⟩

/-- No new request, and none more to be answered. -/
theorem Fewer.quiet {s s' : Sess} (ho : ∀ v, firsts v s'.out ≤ firsts v s.out) (hq : ∀ v, cnt v s'.queue ≤ cnt v s.queue) : Fewer s s' := by
  have a := hq b!"DESCRIBE"
  have b := hq b!"OPTIONS"
  have c := ho b!"DESCRIBE"
  have d := ho b!"SETUP"
  exact ⟨ho _, by omega, by omega⟩

theorem command_firsts {w : World} {s s' : Sess} {verb uri : Bytes} {hs : Header} {e : Option SErr} (h : command w s verb uri hs = .ok (s', e)) (v : Bytes) :
    firsts v s'.out ≤ firsts v s.out + (if verb = v then 1 else 0) ∧ cnt v s'.queue ≤ cnt v s.queue + (if verb = v then 1 else 0) := by
  rcases command_out h with ⟨_, rfl, _⟩ | ⟨_, _, a, x, res, rfl, _⟩
  · exact ⟨Nat.le_add_right _ _, Nat.le_add_right _ _⟩
  · generalize hreq : (⟨verb, s.cseq + 1, uri, a, s.session, hs.foldl (fun h e => h.set e.1 e.2) []⟩ : Request) = req
    have hv : req.verb = verb := by rw [← hreq]
    have h1 := cnt_insert v s.queue req
    rw [hv] at h1
    refine ⟨?_, h1⟩
    show firsts v s.out + (if req.verb = v then 1 else 0) ≤ _
    rw [hv]
    exact Nat.le_refl _

/-- A command of the user. -/
theorem command_fewer {w : World} {s s' : Sess} {verb uri : Bytes} {hs : Header} {e : Option SErr} (hv : ¬ Own verb) (h : command w s verb uri hs = .ok (s', e)) : Fewer s s' := by
  have key : ∀ v, Own v → firsts v s'.out ≤ firsts v s.out ∧ cnt v s'.queue ≤ cnt v s.queue := by
    intro v ho
    have := command_firsts h v
    rw [if_neg (show ¬ verb = v from fun e => hv (e ▸ ho))] at this
    exact this
  obtain ⟨a1, a2⟩ := key _ (.inl rfl)
  obtain ⟨b1, b2⟩ := key _ (.inr (.inl rfl))
  obtain ⟨c1, c2⟩ := key _ (.inr (.inr rfl))
  exact ⟨a1, by omega, by omega⟩

theorem setupLoop_firsts {w : World} (fs : List Feed) : ∀ {done : List Feed} {s s' : Sess} {e : Option SErr}, setupLoop w done fs s = .ok (s', e) →
    ∀ v, firsts v s'.out ≤ firsts v s.out + (if v = b!"SETUP" then fs.length else 0) ∧ (v ≠ b!"SETUP" → cnt v s'.queue ≤ cnt v s.queue) := by
  induction fs with
  | nil => intro done s s' e h v; injection h with h; injection h with h _; subst h; exact ⟨Nat.le_add_right _ _, fun _ => Nat.le_refl _⟩
  | cons f fs ih =>
    intro done s s' e h v
    rw [setupLoop] at h
    cases hc : command w s verbSetup (setupURI s.baseURI f.media.control) [(b!"Transport", f.transportHeader)] with
    | error p => rw [hc] at h; cases h
    | ok r =>
      obtain ⟨s1, e1⟩ := r
      rw [hc] at h
      obtain ⟨h1, h2⟩ := command_firsts hc v
      rw [List.length_cons]
      have key : ∀ {s2 : Sess}, firsts v s2.out ≤ firsts v s1.out + (if v = b!"SETUP" then fs.length else 0) → (v ≠ b!"SETUP" → cnt v s2.queue ≤ cnt v s1.queue) →
          firsts v s2.out ≤ firsts v s.out + (if v = b!"SETUP" then fs.length + 1 else 0) ∧ (v ≠ b!"SETUP" → cnt v s2.queue ≤ cnt v s.queue) := by
        intro s2 k1 k2
        by_cases hv : v = b!"SETUP"
        · rw [if_pos hv] at k1 ⊢
          rw [if_pos (show verbSetup = v from hv.symm)] at h1
          exact ⟨by omega, fun h => absurd hv h⟩
        · rw [if_neg hv] at k1 ⊢
          rw [if_neg (show ¬ verbSetup = v from fun e => hv e.symm)] at h1 h2
          exact ⟨by omega, fun h => Nat.le_trans (k2 h) h2⟩
      cases e1 with
      | some e1 => injection h with h; injection h with h _; subst h; exact key (Nat.le_add_right _ _) (fun _ => Nat.le_refl _)
      | none =>
        obtain ⟨k1, k2⟩ := ih h v
        exact key k1 k2

theorem setupAnswer_quiet {w : World} {rsp : Response} (fs : List Feed) : ∀ {done : List Feed} {s s' : Sess} {e : Option SErr},
    setupAnswer w rsp done fs s = .ok (s', e) → s'.out = s.out ∧ s'.queue = s.queue := by
  intro done s s' e h
  obtain ⟨_, g2, _, g4⟩ := setupAnswer_core _ h
  exact ⟨g4, g2⟩

theorem checkReady_quiet (s : Sess) : (∀ v, firsts v (checkReady s).out = firsts v s.out) ∧ (checkReady s).queue = s.queue := by
  unfold checkReady
  split
  · exact ⟨fun _ => rfl, rfl⟩
  · exact ⟨fun _ => rfl, rfl⟩

theorem response_fewer {w : World} {s s' : Sess} {rsp : Response} {e : Option SErr} (hb : (rsp.body.getD []).length ≤ 2048)
    (hs : handleItem w s (.response rsp) = .ok (s', e)) : Fewer s s' := by
  cases response_effect hs with
  | retried req res ho hst hq hin => exact .quiet (fun v => by rw [ho]; exact Nat.le_refl _) hq
  | granted st v ho hst hv hc hq => exact .quiet (fun v => by rw [ho]; exact Nat.le_refl _) hq
  | ready sinks ho hst hq hin hall => exact .quiet (fun v => by rw [ho]; exact Nat.le_refl _) hq
  | plain own ho hown hst hq hset =>
    have hs : handleRtsp w { s with out := .got rsp :: s.out } rsp = .ok (s', e) := hs
    unfold handleRtsp at hs
    cases hf : s.find rsp.cseq with
    | none =>
      rw [show ({ s with out := .got rsp :: s.out } : Sess).find rsp.cseq = none from hf] at hs
      injection hs with hs; injection hs with hs _; subst hs
      exact .quiet (fun _ => Nat.le_refl _) (fun _ => Nat.le_refl _)
    | some req =>
      rw [show ({ s with out := .got rsp :: s.out } : Sess).find rsp.cseq = some req from hf] at hs
      dsimp only at hs
      have took : ∀ v, req.verb = v → cnt v (s.queue.filter fun e => e.1 ≠ rsp.cseq) + 1 ≤ cnt v s.queue := fun v hv => cnt_found v s.queue rsp.cseq req hf hv
      have less : ∀ v, cnt v (s.queue.filter fun e => e.1 ≠ rsp.cseq) ≤ cnt v s.queue := fun v => cnt_filter v _ _
      by_cases h401 : rsp.statusCode = 401
      · rw [if_pos h401] at hs
        rcases retry_out hs with ⟨x, rfl, _⟩ | ⟨a, x, res, rfl, _⟩
        · exact .quiet (fun _ => Nat.le_refl _) less
        · have := congrArg List.length ho
          exact absurd ho (by
            intro ho
            cases own with
            | nil =>
              injection ho with ho _; cases ho
            | cons o own =>
              injection ho with ho _
              obtain ⟨_, _, k, _⟩ := hown o (List.mem_cons_self ..)
              rw [k] at ho
              cases ho)
      · rw [if_neg h401, learnSession_eq] at hs
        dsimp only [Sess.remove] at hs
        unfold answer at hs
        split at hs
        · next hv =>
          split at hs
          · have k := command_firsts (show command w _ verbDescribe _ _ = _ from deref_ok hs)
            obtain ⟨a1, a2⟩ := k b!"OPTIONS"
            obtain ⟨b1, b2⟩ := k b!"DESCRIBE"
            obtain ⟨c1, c2⟩ := k b!"SETUP"
            rw [if_neg (by decide)] at a1 a2 c1 c2
            rw [if_pos (by rfl)] at b1 b2
            have t := took b!"OPTIONS" hv
            have d := less b!"DESCRIBE"
            have a1 : firsts b!"OPTIONS" s'.out ≤ firsts b!"OPTIONS" s.out := a1
            have b1 : firsts b!"DESCRIBE" s'.out ≤ firsts b!"DESCRIBE" s.out + 1 := b1
            have c1 : firsts b!"SETUP" s'.out ≤ firsts b!"SETUP" s.out := c1
            have a2 : cnt b!"OPTIONS" s'.queue ≤ cnt b!"OPTIONS" (s.queue.filter fun e => e.1 ≠ rsp.cseq) := a2
            have b2 : cnt b!"DESCRIBE" s'.queue ≤ cnt b!"DESCRIBE" (s.queue.filter fun e => e.1 ≠ rsp.cseq) + 1 := b2
            exact ⟨a1, by omega, by omega⟩
          · injection hs with hs; injection hs with hs _; subst hs; exact .quiet (fun _ => Nat.le_refl _) less
        · split at hs
          · next hv =>
            split at hs
            · rename_i body hbody
              split at hs
              · cases hs
              · rename_i feeds hp
                have k := setupLoop_firsts _ hs
                obtain ⟨a1, a2⟩ := k b!"OPTIONS"
                obtain ⟨b1, b2⟩ := k b!"DESCRIBE"
                obtain ⟨c1, _⟩ := k b!"SETUP"
                rw [if_neg (by decide)] at a1 b1
                rw [if_pos rfl] at c1
                have t := took b!"DESCRIBE" hv
                have d := less b!"OPTIONS"
                have hw := parseFeeds_weight hp
                have hb : body.length ≤ 2048 := by rw [hbody] at hb; exact hb
                have a1 : firsts b!"OPTIONS" s'.out ≤ firsts b!"OPTIONS" s.out := a1
                have b1 : firsts b!"DESCRIBE" s'.out ≤ firsts b!"DESCRIBE" s.out := b1
                have c1 : firsts b!"SETUP" s'.out ≤ firsts b!"SETUP" s.out + feeds.length := c1
                have a2 : cnt b!"OPTIONS" s'.queue ≤ cnt b!"OPTIONS" (s.queue.filter fun e => e.1 ≠ rsp.cseq) := a2 (by decide)
                have b2 : cnt b!"DESCRIBE" s'.queue ≤ cnt b!"DESCRIBE" (s.queue.filter fun e => e.1 ≠ rsp.cseq) := b2 (by decide)
                exact ⟨a1, by omega, by omega⟩
            · injection hs with hs; injection hs with hs _; subst hs; exact .quiet (fun _ => Nat.le_refl _) less
          · have hn : ∀ (p : Prop) [Decidable p] (t : Sess) (st : Nat), (∀ v, firsts v t.out = firsts v s.out) → t.queue = (s.queue.filter fun e => e.1 ≠ rsp.cseq) →
                Fewer s (if p then notify t st else t) := by
              intro p _ t st h1 h2
              split
              · exact .quiet (fun v => Nat.le_of_eq (h1 v)) (fun v => by show cnt v t.queue ≤ _; rw [h2]; exact less v)
              · exact .quiet (fun v => Nat.le_of_eq (h1 v)) (fun v => by rw [h2]; exact less v)
            split at hs
            · injection hs with hs; injection hs with hs _; subst hs; exact hn _ _ _ (fun _ => rfl) rfl
            · split at hs
              · injection hs with hs; injection hs with hs _; subst hs; exact hn _ _ _ (fun _ => rfl) rfl
              · split at hs
                · injection hs with hs; injection hs with hs _; subst hs; exact hn _ _ _ (fun _ => rfl) rfl
                · split at hs
                  · have ready : ∀ t : Sess, t.out = .got rsp :: s.out → t.queue = (s.queue.filter fun e => e.1 ≠ rsp.cseq) → Fewer s (checkReady t) := by
                      intro t h1 h2
                      obtain ⟨k1, k2⟩ := checkReady_quiet t
                      exact .quiet (fun v => by rw [k1, h1]; exact Nat.le_refl _) (fun v => by rw [k2, h2]; exact less v)
                    unfold handleSetup at hs
                    split at hs
                    · split at hs
                      · cases hs
                      · next hsa =>
                        injection hs with hs; injection hs with hs _; subst hs
                        obtain ⟨k1, k2⟩ := setupAnswer_quiet _ hsa
                        exact .quiet (fun v => by rw [k1]; exact Nat.le_refl _) (fun v => by rw [k2]; exact less v)
                      · next hsa =>
                        injection hs with hs; injection hs with hs _; subst hs
                        obtain ⟨k1, k2⟩ := setupAnswer_quiet _ hsa
                        exact ready _ k1 k2
                    · injection hs with hs; injection hs with hs _; subst hs; exact ready _ rfl rfl
                  · injection hs with hs; injection hs with hs _; subst hs; exact .quiet (fun _ => Nat.le_refl _) less

end Ouro
