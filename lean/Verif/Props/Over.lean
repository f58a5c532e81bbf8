import Verif.Lemmas.Over
/-! # C122: a session that is over stays over -/
namespace Ouro
open Spec

theorem find_pending {s : Sess} (inv : Inv s) (hp : ∀ c, pending c s.out = none) (c : Int) : s.find c = none := by rw [inv.find, hp]

/-- C122, what holds for every user: when Done has been reported last and no request is unanswered, then until the user calls again the session sends nothing and
reports nothing, whatever the server sends and however often the time for a keep-alive comes. -/
theorem C122_nothing_partial (w : World) (s : Sess) (h : Reachable w s) (hd : stageNow s.out = 4) (hp : ∀ c, pending c s.out = none)
    (ops : List Op) (hops : ∀ op ∈ ops, ByItself op) (s' : Sess) (hr : run w s ops = .ok s') :
    ∃ new, s'.out = new ++ s.out ∧ ∀ o ∈ new, Incoming o := by
  have inv := inv_reachable h
  have hst : s.stage = 4 := (stageOk_reachable h).trans hd
  have key : ∀ (ops : List Op), (∀ op ∈ ops, ByItself op) → ∀ (s s' : Sess), (∀ c, s.find c = none) → s.stage = 4 → run w s ops = .ok s' →
      ∃ new, s'.out = new ++ s.out ∧ ∀ o ∈ new, Incoming o := by
    intro ops
    induction ops with
    | nil => intro _ s s' _ _ hr; injection hr with hr; subst hr; exact ⟨[], rfl, fun o h => by (cases h)⟩
    | cons op ops ih =>
      intro hops s s' hf hst hr
      unfold run at hr
      have hop := hops op (List.mem_cons_self ..)
      have one : ∀ t e, step w s op = .ok (t, e) → (∀ c, t.find c = none) ∧ t.stage = 4 ∧ ∃ new, t.out = new ++ s.out ∧ ∀ o ∈ new, Incoming o := by
        intro t e ht
        cases op with
        | keepAlive due =>
          have ht : s.keepAlive w due = .ok (t, e) := ht
          have ht := deref_ok ht
          rw [if_neg (by rw [hst]; rintro ⟨_, _, _, h, _⟩; exact absurd h (by decide))] at ht
          injection ht with ht; injection ht with ht _; subst ht
          exact ⟨hf, hst, [], rfl, fun o h => by (cases h)⟩
        | item i =>
          cases i with
          | frame ch p =>
            injection ht with ht; injection ht with ht _; subst ht
            exact ⟨hf, hst, [.data ch p], rfl, fun o h => by rw [List.mem_singleton] at h; subst h; trivial⟩
          | response rsp =>
            have ht : handleRtsp w { s with out := .got rsp :: s.out } rsp = .ok (t, e) := ht
            unfold handleRtsp at ht
            rw [show ({ s with out := .got rsp :: s.out } : Sess).find rsp.cseq = none from hf rsp.cseq] at ht
            injection ht with ht; injection ht with ht _; subst ht
            exact ⟨hf, hst, [.got rsp], rfl, fun o h => by rw [List.mem_singleton] at h; subst h; trivial⟩
        | _ => exact hop.elim
      cases hs : step w s op with
      | error p => rw [hs] at hr; cases hr
      | ok x =>
        obtain ⟨t, e⟩ := x
        rw [hs] at hr
        obtain ⟨h1, h2, n1, e1, k1⟩ := one t e hs
        obtain ⟨n2, e2, k2⟩ := ih (fun o ho => hops o (List.mem_cons_of_mem _ ho)) t s' h1 h2 hr
        refine ⟨n2 ++ n1, by rw [e2, e1, List.append_assoc], fun o ho => ?_⟩
        rcases List.mem_append.1 ho with ho | ho
        · exact k2 o ho
        · exact k1 o ho
  exact key ops hops s s' (find_pending inv hp) hst hr

theorem mem_milestones {t : List Act} {k : Nat} (h : Act.wire (.notified k) ∈ t) : Milestone.reached k ∈ milestones t := by
  induction t with
  | nil => cases h
  | cons a t ih =>
    rcases List.mem_cons.1 h with rfl | h
    · show _ ∈ milestones t ++ [.reached k]; simp
    · have := ih h
      cases a with
      | wire o =>
        cases o with
        | notified j => show _ ∈ milestones t ++ _; simp [this]
        | sent again req res =>
          cases again with
          | true => exact this
          | false =>
            show _ ∈ (if Own req.verb then milestones t else milestones t ++ [.asked req.verb])
            split
            · exact this
            · simp [this]
        | _ => exact this
      | ended why =>
        cases why with
        | finished => show _ ∈ milestones t ++ _; simp [this]
        | _ => exact this
      | _ => exact this

/-- What is known of a client whose session is done, while it has not ended. -/
theorem done_place {w : World} {c : Client} (hi : CInv w c) (ho : Opened c) (hd : Act.wire (.notified 4) ∈ c.trace) (hne : c.ended = false) :
    (c.state = 3 ∧ c.states = [4] ∨ c.state = 4 ∧ c.states = []) ∧ (c.state = 3 → c.fired = false) ∧ ∀ v, cnt v c.sess.queue = 0 := by
  obtain ⟨_, n, h8, hm, hp⟩ := hi
  have h7 : n = 7 ∨ n = 8 := by
    have := mem_milestones hd
    rw [hm] at this
    have lt : ¬ n ≤ 6 := fun hn => by
      have : Milestone.reached 4 ∈ course.take 6 := by
        have e : course.take n = (course.take 6).take n := by rw [List.take_take, Nat.min_eq_left hn]
        rw [e] at this
        exact List.mem_of_mem_take this
      exact absurd this (by decide)
    omega
  have zero : Quota 0 c.sess → Settled c.sess → ∀ v, cnt v c.sess.queue = 0 := by
    intro hq hset v
    by_cases hv : Own v
    · rcases hv with rfl | rfl | rfl
      · exact ho hset.stage
      · exact hset.describe
      · exact hset.setup
    · have := hq v hv
      rw [if_neg (fun k => by have := (not_own k).2; omega)] at this
      omega
  have hp := hp hne
  generalize n = m at hp h7
  cases hp with
  | waiting k hk hs' hst' ht hq' hset => omega
  | told k hk hs' hst' ht hq' hset =>
    have : k = 3 := by omega
    subst this
    exact ⟨.inl ⟨hst', hs'⟩, fun _ => ht.2, zero hq' hset⟩
  | timing k h1 hk hs' hst' ht hq' hset =>
    have : k = 3 := by omega
    subst this
    exact ⟨.inr ⟨hst', hs'⟩, fun h => absurd (hst'.symm.trans h) (by decide), zero hq' hset⟩

theorem done_step {w : World} {c c' : Client} {e : CEv} (hi : CInv w c) (ho : Opened c) (hd : Act.wire (.notified 4) ∈ c.trace) (h : cstep w c e = .ok c') :
    ∃ new, c'.trace = new ++ c.trace ∧ ∀ a ∈ new, OnlyTakes a := by
  have none' : ∃ new, c.trace = new ++ c.trace ∧ ∀ a ∈ new, OnlyTakes a := ⟨[], rfl, fun a h => by (cases h)⟩
  have one : ∀ a : Act, OnlyTakes a → ∃ new, a :: c.trace = new ++ c.trace ∧ ∀ a ∈ new, OnlyTakes a := fun a ha => ⟨[a], rfl, fun b h => by rw [List.mem_singleton] at h; subst h; exact ha⟩
  unfold cstep at h
  split at h
  · injection h with h; subst h; exact none'
  · rename_i hne
    have hne : c.ended = false := by simpa using hne
    obtain ⟨hst, hfired, hq⟩ := done_place hi ho hd hne
    cases e with
    | read =>
      have h : clientRead w c = .ok c' := h
      unfold clientRead at h
      split at h
      · split at h
        · injection h with h; subst h; exact none'
        · injection h with h; subst h; exact none'
        · rename_i item r _
          cases hs : handleItem w c.sess item with
          | error p => rw [hs] at h; cases h
          | ok x =>
            obtain ⟨s, e⟩ := x
            rw [hs] at h
            injection h with h; subst h
            cases item with
            | frame ch p =>
              injection hs with hs; injection hs with hs _; subst hs
              rw [adopt_eq (c := { c with rdr := r, running := goesOn e }) (o := [.data ch p]) rfl]
              exact one _ trivial
            | response rsp =>
              have hs : handleRtsp w { c.sess with out := .got rsp :: c.sess.out } rsp = .ok (s, e) := hs
              unfold handleRtsp at hs
              have hf : ({ c.sess with out := .got rsp :: c.sess.out } : Sess).find rsp.cseq = none := by
                cases hf : c.sess.find rsp.cseq with
                | none => exact hf
                | some req =>
                  have := cnt_found req.verb c.sess.queue rsp.cseq req hf rfl
                  have := hq req.verb
                  omega
              rw [hf] at hs
              injection hs with hs; injection hs with hs _; subst hs
              rw [adopt_eq (c := { c with rdr := r, running := goesOn e }) (o := [.got rsp]) rfl]
              exact one _ trivial
      · injection h with h; subst h; exact none'
    | expire =>
      injection h with h; subst h
      split
      · exact none'
      · exact none'
    | timer =>
      have h : clientTimer w c = .ok c' := h
      unfold clientTimer at h
      split at h
      · rename_i hf
        rcases hst with ⟨h3, _⟩ | ⟨h4, _⟩
        · rw [hfired h3] at hf; cases hf
        · dsimp only at h
          rw [h4, if_neg (by decide), if_neg (by decide), if_pos (by decide)] at h
          injection h with h; subst h
          refine ⟨[.ended .finished, .timer], rfl, fun a ha => ?_⟩
          simp only [List.mem_cons, List.not_mem_nil, or_false] at ha
          rcases ha with rfl | rfl <;> trivial
      · injection h with h; subst h; exact none'
    | stage =>
      have h : clientStage w c = .ok c' := h
      unfold clientStage at h
      rcases hst with ⟨_, h4⟩ | ⟨_, h4⟩
      · rw [h4] at h
        dsimp only at h
        rw [if_neg (by decide), if_neg (by decide), if_neg (by decide), if_pos (by decide)] at h
        injection h with h; subst h
        exact one _ trivial
      · rw [h4] at h
        injection h with h; subst h; exact none'
    | packet => exact (packet_sess h).2

-- A session that was torn down, with nothing unanswered.
example : ∃ s, run demoWorld newSession [demoOpen, demoGot 1 200 [] none, .teardown, demoGot 2 200 [] none, demoGot 3 200 [] none] = .ok s ∧ stageNow s.out = 4 ∧
    ∀ c, pending c s.out = none := by
  refine ⟨_, rfl, rfl, fun c => ?_⟩
  show (if (3 : Int) = c then none else if (2 : Int) = c then none else if (3 : Int) = c then _ else if (2 : Int) = c then _ else if (1 : Int) = c then none else if (1 : Int) = c then _ else none) = none
  by_cases h3 : (3 : Int) = c
  · rw [if_pos h3]
  · rw [if_neg h3]
    by_cases h2 : (2 : Int) = c
    · rw [if_pos h2]
    · rw [if_neg h2, if_neg h3, if_neg h2]
      by_cases h1 : (1 : Int) = c
      · rw [if_pos h1]
      · rw [if_neg h1, if_neg h1]

/-- C122 fails for every session in which a PLAY or a PAUSE is unanswered when Done is reported: if it is granted then, playing or pausing is reported. -/
theorem C122_crossing_refuted (w : World) (s : Sess) (h : Reachable w s) (_hd : stageNow s.out = 4) (rsp : Response) (req : Request) (k : Nat)
    (hp : pending rsp.cseq s.out = some req) (hv : req.verb = b!"PLAY" ∧ k = 2 ∨ req.verb = b!"PAUSE" ∧ k = 3) (hc : rsp.statusCode = 200) :
    ∃ s', step w s (.item (.response rsp)) = .ok (s', none) ∧ s'.out = .notified k :: .got rsp :: s.out ∧ stageNow s'.out = k := by
  have hf : s.find rsp.cseq = some req := by rw [(inv_reachable h).find]; exact hp
  show ∃ s', handleRtsp w { s with out := .got rsp :: s.out } rsp = .ok (s', none) ∧ _
  unfold handleRtsp
  rw [show ({ s with out := .got rsp :: s.out } : Sess).find rsp.cseq = some req from hf]
  dsimp only
  rw [if_neg (by rw [hc]; decide), learnSession_eq]
  unfold answer
  rcases hv with ⟨hv, rfl⟩ | ⟨hv, rfl⟩
  · rw [hv, if_neg (by decide), if_neg (by decide), if_neg (by decide), if_pos (by decide), if_pos hc]
    exact ⟨_, rfl, rfl, rfl⟩
  · rw [hv, if_neg (by decide), if_neg (by decide), if_pos (by decide), if_pos hc]
    exact ⟨_, rfl, rfl, rfl⟩

/-- C122 fails: TEARDOWN is granted before the PLAY sent earlier. The session reports Done and then Play; with UDP it starts to keep the session alive
again, by itself. -/
theorem C122_refuted : ∃ s s' s'' req, run demoWorld newSession [.open_ b!"rtsp://h/x" .unicast none, demoGot 1 200 [] none, .play, .teardown, demoGot 4 200 [] none] = .ok s ∧
    stageNow s.out = 4 ∧ step demoWorld s (demoGot 3 200 [] none) = .ok (s', none) ∧ s'.out = .notified 2 :: .got (demoRsp 3 200 [] none) :: s.out ∧
    step demoWorld s' (.keepAlive true) = .ok (s'', none) ∧ s''.out = .sent false req .ok :: s'.out ∧ req.verb = b!"OPTIONS" :=
  ⟨_, _, _, _, rfl, rfl, rfl, rfl, rfl, rfl, by decide⟩

/-- C122 for the command line client: once its session has reported Done, it sends nothing more and reports no stage any more, whatever the server sends
and whatever the schedule is. -/
theorem C122_client (w : World) (c : Client) (h : ClientReachable w c) (hd : Act.wire (.notified 4) ∈ c.trace) (es : List CEv) (c' : Client)
    (hs : csteps w c es = .ok c') : ∃ new, c'.trace = new ++ c.trace ∧ ∀ a ∈ new, OnlyTakes a := by
  obtain ⟨uri, user, rdr, n, c0, es0, h0, h1⟩ := h
  have hop : ∀ (es : List CEv) (d d' : Client), CInv w d → Opened d → Leads w uri user d → csteps w d es = .ok d' → Opened d' := by
    intro es
    induction es with
    | nil => intro d d' _ ho _ h; injection h with h; subst h; exact ho
    | cons e es ih =>
      intro d d' hi ho hl h
      unfold csteps at h
      cases hs : cstep w d e with
      | error p => rw [hs] at h; cases h
      | ok f =>
        rw [hs] at h
        obtain ⟨_, _, _, _, _, hw⟩ := id hl
        exact ih f d' (cstep_inv hi hs) (opened_step hi hw ho hs) (leads_step hl (plain_static hi.reach).1 hs) h
  have start : Opened c0 := by
    intro hne
    exact absurd (by
      have := client_leads (es := []) h0 rfl
      obtain ⟨_, _, _, _, hrun, hw⟩ := this
      rw [show c0.sess.stage = stageNow c0.sess.out from stageOk_reachable ⟨_, hrun⟩, ← hw]
      obtain ⟨b, hb, _, h0, _⟩ := early_before h0
      obtain ⟨s, req, res, e, hc, hout, hverb, hq, hst, hcase⟩ := order_out (verb := verbOptions) (uri := uri) (hs := []) hb.opened h0
      have ha := adopt_eq b (s := s) (o := [.sent false req res]) hout
      obtain ⟨_, o, _, ho, _, _, htr, _⟩ := hb.hist
      have hz : stageNow (wires b.trace) = 0 := by
        rw [htr, wires_map]
        exact incoming0_stageNow ho
      rcases hcase with ⟨_, rfl⟩ | ⟨_, rfl⟩
      · rw [ha]; exact hz
      · rw [ha]; exact hz) hne
  have hi := csteps_inv es0 (open_inv h0) h1
  have ho := hop es0 c0 c (open_inv h0) start (client_leads (es := []) h0 rfl) h1
  have hl := client_leads h0 h1
  clear h1 start hop
  induction es generalizing c with
  | nil => injection hs with hs; subst hs; exact ⟨[], rfl, fun a h => by (cases h)⟩
  | cons e es ih =>
    unfold csteps at hs
    cases hc : cstep w c e with
    | error p => rw [hc] at hs; cases hs
    | ok d =>
      rw [hc] at hs
      obtain ⟨n1, e1, k1⟩ := done_step hi ho hd hc
      obtain ⟨_, _, _, _, _, hw⟩ := id hl
      obtain ⟨n2, e2, k2⟩ := ih d (by rw [e1]; exact List.mem_append_right _ hd) hs (cstep_inv hi hc) (opened_step hi hw ho hc) (leads_step hl (plain_static hi.reach).1 hc)
      refine ⟨n2 ++ n1, by rw [e2, e1, List.append_assoc], fun a ha => ?_⟩
      rcases List.mem_append.1 ha with ha | ha
      · exact k2 a ha
      · exact k1 a ha

-- A client whose session is done, before it has received the last stage, with a packet still to come.
example : ∃ c, ClientReachable demoWorld c ∧ c.trace.any (fun a => match a with | .wire (.notified 4) => true | _ => false) = true ∧ c.ended = false := by
  obtain ⟨c, h1, h2⟩ := demoClient_shows (frames := []) (es := demoPlay ++ demoStop.take 7)
    (f := fun c => (c.trace.any (fun a => match a with | .wire (.notified 4) => true | _ => false), c.ended)) (a := (true, false)) (by decide +kernel)
  exact ⟨c, h1, congrArg Prod.fst h2, congrArg Prod.snd h2⟩

end Ouro
