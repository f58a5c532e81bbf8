import Verif.Props.Setup
import Verif.Props.Sdp
import Verif.Props.Transport
import Verif.Props.CrashExact
import Verif.Spec.Described
/-!
# C59: Ready, whatever the user does

`C59_ready_partial` is about users who leave DESCRIBE and SETUP to the session. Here is what holds in every history.
-/
namespace Ouro
open Spec

/-- What is known when Ready is reported; `k` is the number of answers the session has counted by now. -/
def ServedFact (k : Nat) : Out → List Out → Prop
  | .notified st, b => st = 1 → (∃ rsp before req, b = .got rsp :: before ∧ pending rsp.cseq before = some req ∧ req.verb = b!"SETUP" ∧ rsp.statusCode ≠ 401) ∧
      described b ≤ setupsAnswered b ∧ described b ≤ k
  | _, _ => True

theorem ServedFact.mono {k l : Nat} (h : k ≤ l) {o : Out} {b : List Out} (hf : ServedFact k o b) : ServedFact l o b := by
  cases o with
  | notified st => exact fun e => ⟨(hf e).1, (hf e).2.1, Nat.le_trans (hf e).2.2 h⟩
  | _ => trivial

theorem Past.served_mono {k l : Nat} (h : k ≤ l) : ∀ {o : List Out}, Past (ServedFact k) o → Past (ServedFact l) o
  | [], _ => trivial
  | _ :: _, hp => ⟨hp.1.mono h, Past.served_mono h hp.2⟩

/-- The invariant. -/
structure ReadyInv (s : Sess) : Prop where
  len : s.feeds.length = described s.out
  idx : s.feedidx ≤ setupsAnswered s.out
  past : Past (ServedFact s.feedidx) s.out

theorem served_command {w : World} {s s' : Sess} {verb uri : Bytes} {hs : Header} {e : Option SErr} (h : ReadyInv s) (hc : command w s verb uri hs = .ok (s', e)) : ReadyInv s' := by
  rcases command_out hc with ⟨_, rfl, _⟩ | ⟨_, _, a, x, res, rfl, _⟩
  · exact h
  · exact ⟨h.len, h.idx, trivial, h.past⟩

theorem served_setupLoop {w : World} (fs : List Feed) : ∀ {done : List Feed} {s s' : Sess} {e : Option SErr},
    setupLoop w done fs s = .ok (s', e) → s.feeds = done ++ fs → ReadyInv s → ReadyInv s' := by
  induction fs with
  | nil => intro done s s' e h _ hs; injection h with h; injection h with h _; subst h; exact hs
  | cons f fs ih =>
    intro done s s' e h hf hs
    unfold setupLoop at h
    cases hc : command w s verbSetup (setupURI s.baseURI f.media.control) [(b!"Transport", f.transportHeader)] with
    | error p => rw [hc] at h; cases h
    | ok r =>
      obtain ⟨t, x⟩ := r
      have ht := served_command hs hc
      have hft := command_feeds hc
      rw [hc] at h
      cases x with
      | some x => injection h with h; injection h with h _; subst h; exact ht
      | none =>
        refine ih h (by simp) ⟨?_, ht.idx, ht.past⟩
        rw [← show t.feeds.length = described t.out from ht.len, hft, hf]
        simp

theorem described_other {rsp : Response} {o : List Out} {req : Request} (hp : pending rsp.cseq o = some req) (hv : req.verb ≠ b!"DESCRIBE") :
    described (.got rsp :: o) = described o := by
  have hx : ¬ (rsp.statusCode ≠ 401 ∧ (pending rsp.cseq o).map (·.verb) = some b!"DESCRIBE") := fun h => hv (by rw [hp] at h; exact Option.some.inj h.2)
  rw [described, if_neg hx]

theorem parseFeeds_described {proto : Proto} {body : Bytes} {fs : List Feed} (h : parseFeeds proto body = .ok fs) : fs.length = (videoSections (split 10 body)).length := by
  rw [(C48_feeds proto body).1] at h
  cases hm : sdpParse body with
  | error p => rw [hm] at h; cases h
  | ok ms =>
    rw [hm] at h
    injection h with h
    have h2 := congrArg List.length ((C48_feeds proto body).2 ms).1
    rw [List.length_map] at h2
    rw [← h, h2]
    exact (C35_sections body ms hm).1

/-- The state with the answer noted. -/
theorem served_got {s : Sess} (h : ReadyInv s) {rsp : Response} (hd : described (.got rsp :: s.out) = described s.out) (q : List (Int × Request)) (x : Bytes) :
    ReadyInv { s with queue := q, session := x, out := .got rsp :: s.out } := by
  refine ⟨h.len.trans hd.symm, ?_, trivial, h.past⟩
  show s.feedidx ≤ setupsAnswered s.out + _
  exact Nat.le_trans h.idx (Nat.le_add_right _ _)

theorem served_checkReady {s : Sess} (h : ReadyInv s)
    (hb : ∃ rsp before req, s.out = .got rsp :: before ∧ pending rsp.cseq before = some req ∧ req.verb = b!"SETUP" ∧ rsp.statusCode ≠ 401) : ReadyInv (checkReady s) := by
  unfold checkReady
  split
  · next hge =>
    refine ⟨h.len, h.idx, trivial, fun _ => ⟨hb, ?_, ?_⟩, h.past⟩
    · rw [← h.len]; exact Nat.le_trans hge h.idx
    · rw [← h.len]; exact hge
  · exact h

theorem nums_count {l : List Int} {c : Int} (hc : c ≠ 0) (h : l.Pairwise fun a b => a = b → a = 0) : l.count c ≤ 1 := by
  induction l with
  | nil => simp
  | cons a l ih =>
    cases h with
    | cons h1 h2 =>
      by_cases hac : a = c
      · subst hac
        have : l.count a = 0 := List.count_eq_zero.2 fun hm => hc (h1 a hm rfl)
        rw [List.count_cons_self, this]
        exact Nat.le_refl _
      · rw [List.count_cons_of_ne hac]; exact ih h2

theorem setupAnswer_mono {w : World} {rsp : Response} (fs : List Feed) : ∀ {done : List Feed} {s s' : Sess} {e : Option SErr},
    setupAnswer w rsp done fs s = .ok (s', e) → s.feedidx ≤ s'.feedidx := by
  induction fs with
  | nil => intro done s s' e h; injection h with h; injection h with h _; subst h; exact Nat.le_refl _
  | cons f fs ih =>
    intro done s s' e h
    unfold setupAnswer at h
    split at h
    · cases ht : f.transportSetup w.inf (rsp.header.get b!"Transport") with
      | error p => rw [ht] at h; cases h
      | ok r =>
        obtain ⟨f', x⟩ := r
        rw [ht] at h
        dsimp only at h
        cases x with
        | some x => injection h with h; injection h with h _; subst h; exact Nat.le_succ _
        | none =>
          dsimp only at h
          split at h
          · exact Nat.le_trans (Nat.le_succ _) (ih h)
          · have a1 := (addSink_rest w { s with feedidx := s.feedidx + 1, feeds := done ++ f' :: fs } (UInt8.ofNat (s.feedidx + 1) * 2) f'.transp.port.one).2.2
            split at h
            · next s1 e1 h1 =>
              injection h with h; injection h with h _; subst h
              rw [h1] at a1; dsimp only at a1; omega
            · next s1 h1 =>
              rw [h1] at a1; dsimp only at a1
              have a2 := (addSink_rest w s1 (UInt8.ofNat (s.feedidx + 1) * 2 + 1) f'.transp.port.two).2.2
              split at h
              · next s2 e2 h2 =>
                injection h with h; injection h with h _; subst h
                rw [h2] at a2; dsimp only at a2; omega
              · next s2 h2 =>
                rw [h2] at a2; dsimp only at a2
                have := ih h
                omega
    · exact ih h

theorem served_response {w : World} {s s' : Sess} {rsp : Response} {e : Option SErr} (inv : Inv s) (hn : FeedNums s) (h : ReadyInv s)
    (hs : handleItem w s (.response rsp) = .ok (s', e)) : ReadyInv s' := by
  have hs : handleRtsp w { s with out := .got rsp :: s.out } rsp = .ok (s', e) := hs
  unfold handleRtsp at hs
  cases hf : s.find rsp.cseq with
  | none =>
    rw [show ({ s with out := .got rsp :: s.out } : Sess).find rsp.cseq = none from hf] at hs
    injection hs with hs; injection hs with hs _; subst hs
    have hp : pending rsp.cseq s.out = none := by rw [← inv.find]; exact hf
    exact served_got h (by rw [described, hp, if_neg (fun x => by (cases x.2))]) s.queue s.session
  | some req =>
    have hp : pending rsp.cseq s.out = some req := by rw [← inv.find]; exact hf
    rw [show ({ s with out := .got rsp :: s.out } : Sess).find rsp.cseq = some req from hf] at hs
    dsimp only at hs
    by_cases h401 : rsp.statusCode = 401
    · rw [if_pos h401] at hs
      have hd : described (.got rsp :: s.out) = described s.out := by rw [described, if_neg (fun x => x.1 h401)]
      have t0 := served_got h hd
      rcases retry_out hs with ⟨x, rfl, _⟩ | ⟨a, x, res, rfl, _⟩
      · have t := t0 s.queue s.session; exact ⟨t.len, t.idx, t.past⟩
      · have t := t0 s.queue s.session; exact ⟨t.len, t.idx, trivial, t.past⟩
    · rw [if_neg h401, learnSession_eq] at hs
      dsimp only [Sess.remove] at hs
      unfold answer at hs
      have t0 : req.verb ≠ b!"DESCRIBE" → ReadyInv { s with queue := s.queue.filter (fun e => e.1 ≠ rsp.cseq), session := learned s.session (rsp.header.get b!"Session"), out := .got rsp :: s.out } :=
        fun hv => served_got h (described_other hp hv) _ _
      have pass : ∀ st, st ≠ 1 → req.verb ≠ b!"DESCRIBE" → ReadyInv (notify { s with queue := s.queue.filter (fun e => e.1 ≠ rsp.cseq), session := learned s.session (rsp.header.get b!"Session"), out := .got rsp :: s.out } st) :=
        fun st h1 hv => ⟨(t0 hv).len, (t0 hv).idx, fun e => absurd e h1, (t0 hv).past⟩
      split at hs
      · next hv =>
        have t := t0 (by rw [show req.verb = b!"OPTIONS" from hv]; decide)
        split at hs
        · have hs := deref_ok hs
          refine served_command ?_ hs
          exact ⟨t.len, t.idx, t.past⟩
        · injection hs with hs; injection hs with hs _; subst hs; exact t
      · split at hs
        · next hv =>
          have hd : described (.got rsp :: s.out) = match rsp.body with
              | some body => (videoSections (split 10 body)).length
              | none => described s.out := by
            rw [described, if_pos ⟨h401, by rw [hp, ← show req.verb = b!"DESCRIBE" from hv]; rfl⟩]
            cases rsp.body <;> rfl
          split at hs
          · next body hb =>
            split at hs
            · cases hs
            · next feeds hpf =>
              refine served_setupLoop _ hs rfl ⟨?_, ?_, trivial, h.past⟩
              · rw [hb] at hd
                exact (parseFeeds_described hpf).trans hd.symm
              · exact Nat.le_trans h.idx (Nat.le_add_right _ _)
          · next hb =>
            injection hs with hs; injection hs with hs _; subst hs
            rw [hb] at hd
            exact served_got h hd _ _
        · next hnd =>
          have hnd : req.verb ≠ b!"DESCRIBE" := hnd
          split at hs
          · injection hs with hs; injection hs with hs _; subst hs
            split
            · exact pass 3 (by decide) hnd
            · exact t0 hnd
          · split at hs
            · injection hs with hs; injection hs with hs _; subst hs
              split
              · exact pass 2 (by decide) hnd
              · exact t0 hnd
            · split at hs
              · injection hs with hs; injection hs with hs _; subst hs
                split
                · exact pass 4 (by decide) hnd
                · exact t0 hnd
              · split at hs
                · next hv =>
                  have hv : req.verb = b!"SETUP" := hv
                  have t := t0 hnd
                  have hans : setupsAnswered (.got rsp :: s.out) = setupsAnswered s.out + 1 := by
                    rw [setupsAnswered, if_pos ⟨h401, by rw [hp, ← hv]; rfl⟩]
                  have hr := inv.range rsp.cseq req hp
                  have hcount := nums_count (c := rsp.cseq) (by omega) hn.2
                  have hidx := h.idx
                  unfold handleSetup at hs
                  have key : ∀ {t' : Sess} {x : Option SErr}, setupAnswer w rsp [] s.feeds { s with queue := s.queue.filter (fun e => e.1 ≠ rsp.cseq), session := learned s.session (rsp.header.get b!"Session"), out := .got rsp :: s.out } = .ok (t', x) →
                      ReadyInv t' ∧ t'.out = .got rsp :: s.out := by
                    intro t' x hsa
                    obtain ⟨g1, g2, g3, g4⟩ := setupAnswer_core _ hsa
                    obtain ⟨r1, r2, r3, _⟩ := setupAnswer_feeds _ hsa rfl
                    have hm := setupAnswer_mono _ hsa
                    have hlen := congrArg List.length r2
                    simp only [List.length_map] at hlen
                    refine ⟨⟨?_, ?_, ?_⟩, g4⟩
                    · rw [g4, hlen]; exact t.len
                    · rw [g4]
                      show t'.feedidx ≤ setupsAnswered (.got rsp :: s.out)
                      rw [hans]
                      dsimp only at r3
                      have hcount : (s.feeds.map Feed.cseq).count rsp.cseq ≤ 1 := hcount
                      omega
                    · rw [g4]; exact Past.served_mono hm t.past
                  have hb : ∀ t' : Sess, t'.out = .got rsp :: s.out → ∃ rsp before req, t'.out = .got rsp :: before ∧ pending rsp.cseq before = some req ∧ req.verb = b!"SETUP" ∧ rsp.statusCode ≠ 401 :=
                    fun t' ht => ⟨rsp, s.out, req, ht, hp, hv, h401⟩
                  split at hs
                  · split at hs
                    · cases hs
                    · next t' x hsa => injection hs with hs; injection hs with hs _; subst hs; exact (key hsa).1
                    · next t' hsa => injection hs with hs; injection hs with hs _; subst hs; exact served_checkReady (key hsa).1 (hb _ (key hsa).2)
                  · injection hs with hs; injection hs with hs _; subst hs
                    refine served_checkReady ⟨t.len, ?_, Past.served_mono (Nat.le_succ _) t.past⟩ (hb _ rfl)
                    show s.feedidx + 1 ≤ setupsAnswered (.got rsp :: s.out)
                    omega
                · injection hs with hs; injection hs with hs _; subst hs; exact t0 hnd

theorem served_step {w : World} {s s' : Sess} {op : Op} {e : Option SErr} (inv : Inv s) (hn : FeedNums s) (h : ReadyInv s) (hs : step w s op = .ok (s', e)) : ReadyInv s' := by
  cases op with
  | dial uri proto user => injection hs with hs; injection hs with hs _; subst hs; exact ⟨h.len, h.idx, h.past⟩
  | open_ uri proto user => exact served_command (s := { s with opened := true, baseURI := uri, proto := proto, user := user, sinks := [] }) ⟨h.len, h.idx, h.past⟩ hs
  | options => exact served_command h (deref_ok hs)
  | describe => exact served_command h (deref_ok hs)
  | setup => exact served_setupLoop s.feeds hs rfl h
  | play => exact served_command h (deref_ok hs)
  | pause => exact served_command h (deref_ok hs)
  | teardown => exact served_command h (deref_ok hs)
  | keepAlive due =>
    have hs := deref_ok hs
    split at hs
    · exact served_command h hs
    · injection hs with hs; injection hs with hs _; subst hs; exact h
  | item i =>
    cases i with
    | frame ch p => injection hs with hs; injection hs with hs _; subst hs; exact ⟨h.len, h.idx, trivial, h.past⟩
    | response rsp => exact served_response inv hn h hs

theorem served_reachable {w : World} {s : Sess} (h : Reachable w s) : ReadyInv s := by
  obtain ⟨ops, h⟩ := h
  suffices key : ∀ (ops : List Op) (s s' : Sess), Inv s → FeedNums s → ReadyInv s → run w s ops = .ok s' → ReadyInv s' from
    key ops newSession _ inv_new ⟨fun x hx => by (cases hx), .nil⟩ ⟨rfl, Nat.le_refl _, trivial⟩ h
  intro ops
  induction ops with
  | nil => intro s s' _ _ hk h; injection h with h; subst h; exact hk
  | cons op ops ih =>
    intro s s' inv hn hk h
    unfold run at h
    cases hs : step w s op with
    | error p => rw [hs] at h; cases h
    | ok r => obtain ⟨t, e⟩ := r; rw [hs] at h; exact ih t s' (inv_prims (step_prims hs) inv) (step_nums hs hn) (served_step inv hn hk hs) h

/-- **C59, Ready, in every history**, with whatever calls of the user: it is reported only right after an answer to a pending SETUP, and only when there were at least as many
answers to SETUPs since the session was made as the last description has video sections. -/
theorem C59_ready_any (w : World) (s : Sess) (h : Reachable w s) (a b : List Out) (ho : s.out = a ++ .notified 1 :: b) :
    (∃ rsp before req, b = .got rsp :: before ∧ pending rsp.cseq before = some req ∧ req.verb = b!"SETUP" ∧ rsp.statusCode ≠ 401) ∧
      described b ≤ setupsAnswered b := by
  have hp := (served_reachable h).past
  rw [ho] at hp
  have := (Past.at hp : ServedFact _ (.notified 1) b) rfl
  exact ⟨this.1, this.2.1⟩

/-- **C59, why it can be too early**: answers are counted for the whole session. Once Ready was reported, and unless a later description has more video sections than
the one then, every further answer to a pending SETUP (one that refuses it, here) reports Ready at once, however many other SETUPs are pending. -/
theorem C59_again_refuted (w : World) (s : Sess) (h : Reachable w s) (a b : List Out) (ho : s.out = a ++ .notified 1 :: b) (hd : described s.out ≤ described b)
    (rsp : Response) (req : Request) (hp : pending rsp.cseq s.out = some req) (hv : req.verb = b!"SETUP") (h401 : rsp.statusCode ≠ 401) (h200 : rsp.statusCode ≠ 200) :
    ∃ s' sinks, step w s (.item (.response rsp)) = .ok (s', none) ∧ s'.out = .started sinks :: .notified 1 :: .got rsp :: s.out := by
  have hk := served_reachable h
  have hpast := hk.past
  rw [ho] at hpast
  have hk2 := ((Past.at hpast : ServedFact _ (.notified 1) b) rfl).2.2
  have hlen := hk.len
  have hf : s.find rsp.cseq = some req := by rw [(inv_reachable h).find]; exact hp
  show ∃ s' sinks, handleRtsp w { s with out := .got rsp :: s.out } rsp = .ok (s', none) ∧ _
  unfold handleRtsp
  rw [show ({ s with out := .got rsp :: s.out } : Sess).find rsp.cseq = some req from hf]
  dsimp only
  rw [if_neg h401, learnSession_eq]
  unfold answer
  rw [hv, if_neg (by decide), if_neg (by decide), if_neg (by decide), if_neg (by decide), if_neg (by decide), if_pos (by decide)]
  unfold handleSetup
  rw [if_neg h200, if_pos h401]
  unfold checkReady
  rw [if_pos (by show s.feedidx + 1 ≥ s.feeds.length; omega)]
  exact ⟨_, _, rfl, rfl⟩

/-- Two descriptions of two streams each: the session was ready, `Describe` was called again, and two SETUPs are pending. -/
def describedTwice : List Op := demoSetup ++ [demoOk 3, demoOk 4, .describe, demoGot 5 200 [] (some demoSdp)]

example : ∃ (s : Sess) (a b : List Out) (req : Request), Reachable demoWorld s ∧ s.out = a ++ .notified 1 :: b ∧ a.length = 5 ∧ described s.out ≤ described b ∧
    pending 6 s.out = some req ∧ req.verb = b!"SETUP" ∧ (pending 7 s.out).map (·.verb) = some b!"SETUP" ∧ described b = 2 ∧ setupsAnswered b = 2 :=
  ⟨_, [_, _, _, _, _], _, _, ⟨describedTwice, rfl⟩, rfl, rfl, by decide, rfl, by decide, by decide, by decide, by decide⟩

end Ouro
