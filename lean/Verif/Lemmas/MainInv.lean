import Verif.Lemmas.Main
/-! # The invariant of the command line client -/
namespace Ouro
open Spec

/-- No request of the client is pending, but for one with which stage `k` is reached. -/
def Quota (k : Nat) (s : Sess) : Prop := ∀ v, ¬ Own v → cnt v s.queue ≤ if stageAfter v = some k then 1 else 0

def Calm (c : Client) : Prop := c.armed = false ∧ c.fired = false

/-- Where the client is. -/
inductive Place (c : Client) : Nat → Prop
  /-- Waiting for stage `k + 1`. -/
  | waiting (k : Nat) (hk : k ≤ 3) (hs : c.states = []) (hst : c.state = k) (ht : Calm c) (hq : Quota (k + 1) c.sess) (hset : 1 ≤ k → Settled c.sess) : Place c (2 * k)
  /-- Stage `k + 1` is reported and not yet received. -/
  | told (k : Nat) (hk : k ≤ 3) (hs : c.states = [k + 1]) (hst : c.state = k) (ht : Calm c) (hq : Quota 0 c.sess) (hset : Settled c.sess) : Place c (2 * k + 1)
  /-- Stage `k + 1` is received and the timer is running. -/
  | timing (k : Nat) (h1 : 1 ≤ k) (hk : k ≤ 3) (hs : c.states = []) (hst : c.state = k + 1) (ht : c.armed = !c.fired) (hq : Quota 0 c.sess)
      (hset : Settled c.sess) : Place c (2 * k + 1)

theorem not_own {v : Bytes} {k : Nat} (h : stageAfter v = some k) : ¬ Own v ∧ 2 ≤ k := by
  unfold stageAfter at h
  split at h
  · next hv => injection h with h; subst hv; exact ⟨by decide, by omega⟩
  · split at h
    · next hv => injection h with h; subst hv; exact ⟨by decide, by omega⟩
    · split at h
      · next hv => injection h with h; subst hv; exact ⟨by decide, by omega⟩
      · cases h

theorem stageAfter_inj {v v' : Bytes} {k : Nat} (h : stageAfter v = some k) (h' : stageAfter v' = some k) : v = v' := by
  unfold stageAfter at h h'
  split at h
  · next hv =>
    injection h with h; subst h
    split at h'
    · next hv' => rw [hv, hv']
    · split at h'
      · injection h' with h'; cases h'
      · split at h'
        · injection h' with h'; cases h'
        · cases h'
  · split at h
    · next hv =>
      injection h with h; subst h
      split at h'
      · injection h' with h'; cases h'
      · split at h'
        · next hv' => rw [hv, hv']
        · split at h'
          · injection h' with h'; cases h'
          · cases h'
    · split at h
      · next hv =>
        injection h with h; subst h
        split at h'
        · injection h' with h'; cases h'
        · split at h'
          · injection h' with h'; cases h'
          · split at h'
            · next hv' => rw [hv, hv']
            · cases h'
      · cases h

theorem added_eq {s s' : Sess} {o : List Out} (h : s'.out = o ++ s.out) : added s s' = o := by
  unfold added
  rw [h, List.length_append, Nat.add_sub_cancel, List.take_left]

theorem adopt_eq (c : Client) {s : Sess} {o : List Out} (h : s.out = o ++ c.sess.out) :
    c.adopt s = { c with sess := s, states := c.states ++ sentStages o, data := c.data ++ sentData o, trace := o.map .wire ++ c.trace } := by
  unfold Client.adopt; rw [added_eq h]

/-- Events that are no milestones. -/
def Dull : Act → Prop
  | .wire (.notified _) => False
  | .wire (.sent false req _) => Own req.verb
  | .ended .finished => False
  | _ => True

theorem milestones_dull {a : Act} (h : Dull a) (b : List Act) : milestones (a :: b) = milestones b := by
  cases a with
  | wire o =>
    cases o with
    | sent r req res =>
      cases r with
      | false =>
        exact if_pos h
      | true => rfl
    | notified k => exact h.elim
    | got | started | data => rfl
  | ended why => cases why with
    | finished => exact h.elim
    | badPacket | fatal => rfl
  | timer | stage | packet | unit => rfl

theorem milestones_dulls {as : List Act} (h : ∀ a ∈ as, Dull a) (b : List Act) : milestones (as ++ b) = milestones b := by
  induction as with
  | nil => rfl
  | cons a as ih =>
    rw [List.cons_append, milestones_dull (h a (by simp)), ih (fun x hx => h x (by simp [hx]))]

/-- The invariant. -/
structure CInv (w : World) (c : Client) : Prop where
  reach : PlainReachable w c.sess
  course : ∃ n, n ≤ 8 ∧ milestones c.trace = course.take n ∧ (c.ended = false → Place c n)

theorem plain_step {w : World} {s s' : Sess} {op : Op} {e : Option SErr} (h : PlainReachable w s) (hop : Plain op) (hs : step w s op = .ok (s', e)) : PlainReachable w s' := by
  obtain ⟨uri, proto, user, early, ops, h0, h1, h2⟩ := h
  refine ⟨uri, proto, user, early, ops ++ [op], h0, fun o ho => ?_, ?_⟩
  · rcases List.mem_append.1 ho with ho | ho
    · exact h1 o ho
    · rw [List.mem_singleton] at ho; subst ho; exact hop
  · have key : ∀ (l : List Op) (t : Sess), run w t l = .ok s → run w t (l ++ [op]) = .ok s' := by
      intro l
      induction l with
      | nil => intro t ht; injection ht with ht; subst ht; show (match step w t op with | .error p => _ | .ok (s, _) => run w s []) = _; rw [hs]; rfl
      | cons o l ih =>
        intro t ht
        unfold run at ht
        rw [List.cons_append]
        unfold run
        cases ho : step w t o with
        | error p => rw [ho] at ht; cases ht
        | ok r => obtain ⟨u, x⟩ := r; rw [ho] at ht; exact ih u ht
    have := key _ _ h2
    rwa [List.append_assoc, List.cons_append] at this

/-- What `order` does with a command. -/
theorem order_out {w : World} {c c' : Client} {verb uri : Bytes} {hs : Header} (ho : c.sess.opened = true) (h : c.order (command w c.sess verb uri hs) = .ok c') :
    ∃ (s : Sess) (req : Request) (res : IORes) (e : Option SErr), command w c.sess verb uri hs = .ok (s, e) ∧ s.out = .sent false req res :: c.sess.out ∧
      req.verb = verb ∧ s.queue = insertReq c.sess.queue req ∧ s.stage = c.sess.stage ∧
      ((res = .ok ∧ c' = c.adopt s) ∨ (res ≠ .ok ∧ c' = (c.adopt s).finish .fatal)) := by
  unfold Client.order at h
  cases hc : command w c.sess verb uri hs with
  | error p => rw [hc] at h; cases h
  | ok r =>
    obtain ⟨s, e⟩ := r
    rw [hc] at h
    rcases command_out hc with ⟨ho', _⟩ | ⟨_, _, a, x, res, hs', he⟩
    · rw [ho] at ho'; cases ho'
    · subst hs'
      refine ⟨_, _, res, e, rfl, rfl, rfl, rfl, rfl, ?_⟩
      cases res with
      | ok => dsimp only at he; subst he; injection h with h; exact .inl ⟨rfl, h.symm⟩
      | timeout => dsimp only at he; subst he; injection h with h; exact .inr ⟨(fun h => by cases h), h.symm⟩
      | failed => dsimp only at he; subst he; injection h with h; exact .inr ⟨(fun h => by cases h), h.symm⟩

/-- The client makes a request of its own: milestone `2 * k`. -/
theorem ask_inv {w : World} {c c' : Client} {op : Op} {verb : Bytes} {k : Nat} (hr : PlainReachable w c.sess) (hop : Plain op)
    (hstep : step w c.sess op = c.sess.deref (command w c.sess verb c.sess.baseURI [])) (h : c.order (c.sess.deref (command w c.sess verb c.sess.baseURI [])) = .ok c')
    (hv : stageAfter verb = some (k + 1)) (hk : k ≤ 3) (hm : milestones c.trace ++ [.asked verb] = course.take (2 * k)) (hs : c.states = []) (hst : c.state = k) (ht : Calm c)
    (hq : Quota 0 c.sess) (hset : Settled c.sess) : CInv w c' := by
  obtain ⟨hopen, _⟩ := plain_static hr
  rw [deref_open hopen] at hstep h
  obtain ⟨s, req, res, e, hc, ho, hverb, hqueue, hstage, hcase⟩ := order_out hopen h
  have hreach : PlainReachable w s := plain_step hr hop (hstep.trans hc)
  have hown := (not_own hv).1
  have hmil : ∀ b, milestones (.wire (.sent false req res) :: b) = milestones b ++ [.asked verb] := by
    intro b
    rw [← hverb]
    exact if_neg (by rw [hverb]; exact hown)
  have ha := adopt_eq c (s := s) (o := [.sent false req res]) ho
  have hset' : Settled s := by
    have k1 := cnt_insert b!"SETUP" c.sess.queue req
    have k2 := cnt_insert b!"DESCRIBE" c.sess.queue req
    rw [if_neg (by rw [hverb]; exact fun e => hown (.inr (.inr e)))] at k1
    rw [if_neg (by rw [hverb]; exact fun e => hown (.inr (.inl e)))] at k2
    have := hset.setup
    have := hset.describe
    exact ⟨by rw [hqueue]; omega, by rw [hqueue]; omega, by rw [hstage]; exact hset.stage⟩
  have hquota : Quota (k + 1) s := by
    intro v hv'
    have k1 := cnt_insert v c.sess.queue req
    have k2 := hq v hv'
    rw [if_neg (fun e => by have := (not_own e).2; omega)] at k2
    rw [hqueue]
    by_cases e : req.verb = v
    · rw [if_pos (by rw [← e, hverb]; exact hv)]
      rw [if_pos e] at k1; omega
    · rw [if_neg e] at k1; omega
  rcases hcase with ⟨_, rfl⟩ | ⟨_, rfl⟩
  · rw [ha]
    refine ⟨hreach, 2 * k, by omega, ?_, fun _ => ?_⟩
    · show milestones (.wire (.sent false req res) :: c.trace) = _
      rw [hmil, hm]
    · exact .waiting k hk (by show c.states ++ [] = []; rw [hs]; rfl) hst ht hquota (fun _ => hset')
  · rw [ha]
    refine ⟨hreach, 2 * k, by omega, ?_, fun he => by (cases he)⟩
    show milestones (.ended .fatal :: .wire (.sent false req res) :: c.trace) = _
    rw [milestones_dull (a := .ended .fatal) trivial, hmil, hm]

/-- Changes that do not matter for where the client is. -/
theorem Place.congr {c c' : Client} {n : Nat} (h : Place c n) (h1 : c'.states = c.states) (h2 : c'.state = c.state) (h3 : c'.armed = c.armed) (h4 : c'.fired = c.fired)
    (h5 : ∀ k, Quota k c.sess → Quota k c'.sess) (h6 : Settled c.sess → Settled c'.sess) : Place c' n := by
  cases h with
  | waiting k hk hs hst ht hq hset => exact .waiting k hk (h1.trans hs) (h2.trans hst) ⟨h3.trans ht.1, h4.trans ht.2⟩ (h5 _ hq) (fun hk => h6 (hset hk))
  | told k hk hs hst ht hq hset => exact .told k hk (h1.trans hs) (h2.trans hst) ⟨h3.trans ht.1, h4.trans ht.2⟩ (h5 _ hq) (h6 hset)
  | timing k h1' hk hs hst ht hq hset => exact .timing k h1' hk (h1.trans hs) (h2.trans hst) (by rw [h3, h4]; exact ht) (h5 _ hq) (h6 hset)

theorem quota_le {k : Nat} {s s' : Sess} (h : ∀ v, ¬ Own v → cnt v s'.queue ≤ cnt v s.queue) (hq : Quota k s) : Quota k s' :=
  fun v hv => Nat.le_trans (h v hv) (hq v hv)

theorem settled_le {s s' : Sess} (h : ∀ v, cnt v s'.queue ≤ cnt v s.queue) (hst : s'.stage ≠ 0) (hs : Settled s) : Settled s' := by
  have := h b!"SETUP"
  have := h b!"DESCRIBE"
  have := hs.setup
  have := hs.describe
  exact ⟨by omega, by omega, hst⟩

theorem course_step (k : Nat) (hk : k ≤ 3) : course.take (2 * k) ++ [.reached (k + 1)] = course.take (2 * k + 1) := by
  match k, hk with
  | 0, _ => rfl
  | 1, _ => rfl
  | 2, _ => rfl
  | 3, _ => rfl

/-- A turn of `process`. -/
theorem read_inv {w : World} {c c' : Client} (hi : CInv w c) (hne : c.ended = false) (h : clientRead w c = .ok c') : CInv w c' := by
  obtain ⟨hr, n, hn8, hm, hp⟩ := hi
  have hp := hp hne
  unfold clientRead at h
  split at h
  · next hen =>
    split at h
    · injection h with h; subst h; exact ⟨hr, n, hn8, hm, fun _ => hp.congr rfl rfl rfl rfl (fun _ h => h) (fun h => h)⟩
    · injection h with h; subst h; exact ⟨hr, n, hn8, hm, fun _ => hp.congr rfl rfl rfl rfl (fun _ h => h) (fun h => h)⟩
    · next item r _ =>
      cases hs : handleItem w c.sess item with
      | error p => rw [hs] at h; cases h
      | ok r =>
        obtain ⟨s, e⟩ := r
        rw [hs] at h
        injection h with h; subst h
        have hreach : PlainReachable w s := plain_step (op := .item item) hr trivial hs
        cases item with
        | frame ch p =>
          injection hs with hs; injection hs with hs _; subst hs
          rw [adopt_eq (c := { c with rdr := r, running := goesOn e }) (o := [.data ch p]) rfl]
          refine ⟨hreach, n, hn8, ?_, fun _ => hp.congr ?_ rfl rfl rfl (fun _ h => h) (fun h => ⟨h.setup, h.describe, h.stage⟩)⟩
          · show milestones (.wire (.data ch p) :: c.trace) = _
            exact (milestones_dull (a := .wire (.data ch p)) trivial _).trans hm
          · show c.states ++ [] = c.states; exact List.append_nil _
        | response rsp =>
          have inv := inv_reachable (PlainReachable.reachable hr)
          obtain ⟨d, hd⟩ := plain_counts hr
          cases response_effect hs with
          | plain own ho hown hst hq hset =>
            rw [adopt_eq (c := { c with rdr := r, running := goesOn e }) (o := own ++ [.got rsp]) (by rw [ho]; simp)]
            refine ⟨hreach, n, hn8, ?_, fun _ => hp.congr ?_ rfl rfl rfl (fun _ => quota_le hq) (fun h => ?_)⟩
            · refine (milestones_dulls (fun a ha => ?_) _).trans hm
              obtain ⟨o, ho, rfl⟩ := List.mem_map.1 ha
              rcases List.mem_append.1 ho with ho | ho
              · obtain ⟨req, res, rfl, hv⟩ := hown o ho; exact hv
              · rw [List.mem_singleton] at ho; subst ho; trivial
            · show c.states ++ sentStages (own ++ [.got rsp]) = c.states
              have : sentStages (own ++ [.got rsp]) = [] := by
                unfold sentStages
                rw [List.filterMap_eq_nil_iff]
                intro o ho
                rw [List.mem_reverse, List.mem_append] at ho
                rcases ho with ho | ho
                · obtain ⟨req, res, rfl, _⟩ := hown o ho; rfl
                · rw [List.mem_singleton] at ho; subst ho; rfl
              rw [this, List.append_nil]
            · obtain ⟨_, hle⟩ := hset h.describe h.stage
              exact settled_le hle (by rw [hst]; exact h.stage) h
          | retried req res ho hst hq hin =>
            rw [adopt_eq (c := { c with rdr := r, running := goesOn e }) (o := [.sent true req res, .got rsp]) ho]
            refine ⟨hreach, n, hn8, ?_, fun _ => hp.congr ?_ rfl rfl rfl (fun _ => quota_le fun v _ => hq v) (fun h => settled_le hq (by rw [hst]; exact h.stage) h)⟩
            · show milestones (.wire (.sent true req res) :: .wire (.got rsp) :: c.trace) = _
              exact hm
            · show c.states ++ [] = c.states; exact List.append_nil _
          | granted st v ho hst hv hc hq =>
            rw [adopt_eq (c := { c with rdr := r, running := goesOn e }) (o := [.notified st, .got rsp]) ho]
            obtain ⟨hown, h2⟩ := not_own hv
            have nil : ∀ k, Quota k c.sess → st = k ∧ Quota 0 s := by
              intro k hk
              have h1 := hk v hown
              have hst : stageAfter v = some k := by
                by_cases e : stageAfter v = some k
                · exact e
                · rw [if_neg e] at h1; omega
              refine ⟨by rw [hv] at hst; injection hst, fun v' hv' => ?_⟩
              have h3 := hk v' hv'
              have h4 := hq v'
              by_cases e : v' = v
              · subst e; rw [if_pos hst] at h1; omega
              · rw [if_neg (fun h => e (stageAfter_inj h hst))] at h3; omega
            cases hp with
            | waiting k hk hs' hst' ht hq' hset =>
              obtain ⟨rfl, hq0⟩ := nil _ hq'
              refine ⟨hreach, 2 * k + 1, by omega, ?_, fun _ => ?_⟩
              · show milestones (.wire (.notified (k + 1)) :: .wire (.got rsp) :: c.trace) = _
                show milestones c.trace ++ [.reached (k + 1)] = _
                rw [hm]
                exact course_step k hk
              · exact .told k hk (by show c.states ++ [k + 1] = [k + 1]; rw [hs']; rfl) hst' ht hq0 (settled_le hq (by rw [hst]; omega) (hset (by omega)))
            | told k hk hs' _ _ _ _ => rw [hen.2.1] at hs'; cases hs'
            | timing k h1 hk hs' hst' ht hq' hset => have := (nil _ hq').1; omega
          | ready sinks ho hst hq hin hall =>
            rw [adopt_eq (c := { c with rdr := r, running := goesOn e }) (o := [.started sinks, .notified 1, .got rsp]) ho]
            have hsettled := ready_settled inv hd hs hst hin hall
            have no : ¬ Settled c.sess := fun h => by have := h.setup; omega
            cases hp with
            | waiting k hk hs' hst' ht hq' hset =>
              rcases Nat.eq_zero_or_pos k with rfl | hpos
              · refine ⟨hreach, 1, by omega, ?_, fun _ => ?_⟩
                · show milestones c.trace ++ [.reached 1] = _
                  rw [hm]; rfl
                · refine .told 0 (by omega) (by show c.states ++ [1] = [1]; rw [hs']; rfl) hst' ht ?_ hsettled
                  intro v hv
                  have h1 := hq' v hv
                  have h2 := hq v
                  rw [if_neg (fun e => by have := (not_own e).2; omega)] at h1
                  exact Nat.le_trans h2 (Nat.le_trans h1 (Nat.zero_le _))
              · exact absurd (hset hpos) no
            | told k hk hs' _ _ _ hset => exact absurd hset no
            | timing k h1 hk hs' hst' ht hq' hset => exact absurd hset no
  · injection h with h; subst h; exact ⟨hr, n, hn8, hm, fun _ => hp⟩

/-- The timer. -/
theorem timer_inv {w : World} {c c' : Client} (hi : CInv w c) (hne : c.ended = false) (h : clientTimer w c = .ok c') : CInv w c' := by
  obtain ⟨hr, n, hn8, hm, hp⟩ := hi
  have hp := hp hne
  unfold clientTimer at h
  split at h
  · next hf =>
    dsimp only at h
    cases hp with
    | waiting k hk hs' hst' ht hq' hset => rw [ht.2] at hf; cases hf
    | told k hk hs' hst' ht hq' hset => rw [ht.2] at hf; cases hf
    | timing k h1 hk hs' hst' ht hq' hset =>
      have harm : c.armed = false := by rw [ht, hf]; rfl
      match k, h1, hk with
      | 1, _, _ =>
        rw [if_pos (show c.state = stagePlay from hst')] at h
        refine ask_inv (c := { c with fired := false, trace := .timer :: c.trace }) (op := .pause) (verb := b!"PAUSE") (k := 2) hr trivial rfl h rfl (by omega) ?_ hs' hst' ⟨harm, rfl⟩ hq' hset
        show milestones c.trace ++ _ = _
        rw [hm]; rfl
      | 2, _, _ =>
        rw [if_neg (by rw [hst']; decide), if_pos (show c.state = stagePause from hst')] at h
        refine ask_inv (c := { c with fired := false, trace := .timer :: c.trace }) (op := .teardown) (verb := b!"TEARDOWN") (k := 3) hr trivial rfl h rfl (by omega) ?_ hs' hst' ⟨harm, rfl⟩ hq' hset
        show milestones c.trace ++ _ = _
        rw [hm]; rfl
      | 3, _, _ =>
        rw [if_neg (by rw [hst']; decide), if_neg (by rw [hst']; decide), if_pos (show c.state = stageDone from hst')] at h
        injection h with h; subst h
        refine ⟨hr, 8, by omega, ?_, fun he => by (cases he)⟩
        show milestones c.trace ++ [.finished] = _
        rw [hm]; rfl
  · injection h with h; subst h; exact ⟨hr, n, hn8, hm, fun _ => hp⟩

/-- A stage is received. -/
theorem stage_inv {w : World} {c c' : Client} (hi : CInv w c) (hne : c.ended = false) (h : clientStage w c = .ok c') : CInv w c' := by
  obtain ⟨hr, n, hn8, hm, hp⟩ := hi
  have hp := hp hne
  unfold clientStage at h
  split at h
  · injection h with h; subst h; exact ⟨hr, n, hn8, hm, fun _ => hp⟩
  · next k' ks hks =>
    dsimp only at h
    cases hp with
    | waiting k hk hs' hst' ht hq' hset => rw [hs'] at hks; cases hks
    | timing k h1 hk hs' hst' ht hq' hset => rw [hs'] at hks; cases hks
    | told k hk hs' hst' ht hq' hset =>
      rw [hs'] at hks
      injection hks with h1 h2
      subst h1 h2
      match k, hk with
      | 0, _ =>
        rw [if_pos (by rfl)] at h
        refine ask_inv (c := { c with states := [], state := 1, trace := .stage 1 :: c.trace }) (op := .play) (verb := b!"PLAY") (k := 1) hr trivial rfl h rfl (by omega) ?_ rfl rfl ht hq' hset
        show milestones c.trace ++ _ = _
        rw [hm]; rfl
      | 1, _ =>
        rw [if_neg (by decide), if_pos (by rfl)] at h
        injection h with h; subst h
        exact ⟨hr, 3, by omega, hm, fun _ => .timing 1 (by omega) (by omega) rfl rfl (by show true = !c.fired; rw [ht.2]; rfl) hq' hset⟩
      | 2, _ =>
        rw [if_neg (by decide), if_neg (by decide), if_pos (by rfl)] at h
        injection h with h; subst h
        exact ⟨hr, 5, by omega, hm, fun _ => .timing 2 (by omega) (by omega) rfl rfl (by show true = !c.fired; rw [ht.2]; rfl) hq' hset⟩
      | 3, _ =>
        rw [if_neg (by decide), if_neg (by decide), if_neg (by decide), if_pos (by rfl)] at h
        injection h with h; subst h
        exact ⟨hr, 7, by omega, hm, fun _ => .timing 3 (by omega) (by omega) rfl rfl (by show true = !c.fired; rw [ht.2]; rfl) hq' hset⟩

/-- A packet is received. -/
theorem packet_inv {w : World} {c c' : Client} (hi : CInv w c) (hne : c.ended = false) (h : clientPacket c = .ok c') : CInv w c' := by
  obtain ⟨hr, n, hn8, hm, hp⟩ := hi
  have hp := hp hne
  have units : ∀ (us : List NALUnit) (b : List Act), milestones ((us.map .unit).reverse ++ b) = milestones b := by
    intro us b
    refine milestones_dulls (fun a ha => ?_) b
    rw [List.mem_reverse, List.mem_map] at ha
    obtain ⟨u, _, rfl⟩ := ha
    trivial
  unfold clientPacket at h
  split at h
  · injection h with h; subst h; exact ⟨hr, n, hn8, hm, fun _ => hp⟩
  · next ch payload rest hd =>
    dsimp only at h
    split at h
    · split at h
      · cases h
      · injection h with h; subst h; exact ⟨hr, n, hn8, hm, fun he => by (cases he)⟩
      · split at h
        · cases h
        · injection h with h; subst h; exact ⟨hr, n, hn8, hm, fun he => by (cases he)⟩
        · injection h with h; subst h
          exact ⟨hr, n, hn8, (units _ _).trans hm, fun _ => hp.congr rfl rfl rfl rfl (fun _ h => h) (fun h => h)⟩
    · split at h
      · cases h
      · injection h with h; subst h; exact ⟨hr, n, hn8, hm, fun he => by (cases he)⟩
      · injection h with h; subst h; exact ⟨hr, n, hn8, hm, fun _ => hp.congr rfl rfl rfl rfl (fun _ h => h) (fun h => h)⟩

theorem cstep_inv {w : World} {c c' : Client} {e : CEv} (hi : CInv w c) (h : cstep w c e = .ok c') : CInv w c' := by
  unfold cstep at h
  split at h
  · injection h with h; subst h; exact hi
  · next hne =>
    have hne : c.ended = false := by simpa using hne
    cases e with
    | read => exact read_inv hi hne h
    | timer => exact timer_inv hi hne h
    | stage => exact stage_inv hi hne h
    | packet => exact packet_inv hi hne h
    | expire =>
      injection h with h; subst h
      split
      · next ha =>
        obtain ⟨hr, n, hn8, hm, hp⟩ := hi
        refine ⟨hr, n, hn8, hm, fun _ => ?_⟩
        cases hp hne with
        | waiting k hk hs' hst' ht hq' hset => rw [ht.1] at ha; cases ha
        | told k hk hs' hst' ht hq' hset => rw [ht.1] at ha; cases ha
        | timing k h1 hk hs' hst' ht hq' hset => exact .timing k h1 hk hs' hst' rfl hq' hset
      · exact hi

theorem csteps_inv {w : World} (es : List CEv) : ∀ {c c' : Client}, CInv w c → csteps w c es = .ok c' → CInv w c' := by
  induction es with
  | nil => intro c c' hi h; injection h with h; subst h; exact hi
  | cons e es ih =>
    intro c c' hi h
    unfold csteps at h
    cases hc : cstep w c e with
    | error p => rw [hc] at h; cases h
    | ok d => rw [hc] at h; exact ih (cstep_inv hi hc) h

/-- The client before OPTIONS is sent. -/
structure Before (w : World) (uri : Bytes) (user : Option (Bytes × Bytes)) (c : Client) : Prop where
  hist : ∃ early o, (∀ op ∈ early, ByItself op) ∧ Incoming0 o ∧
    run w newSession (.dial uri .tcp user :: early) = .ok (dialled uri .tcp user o) ∧
    c.sess = dialled uri .tcp user o ∧ c.trace = o.map .wire ∧ c.data = sentData o
  states : c.states = []
  few : c.data.length ≤ 21
  state : c.state = 0
  sink : c.sink = newNALSink
  armed : c.armed = false
  fired : c.fired = false
  ended : c.ended = false

theorem Before.opened {w : World} {uri : Bytes} {user : Option (Bytes × Bytes)} {c : Client} (h : Before w uri user c) : c.sess.opened = true := by
  obtain ⟨_, o, _, _, _, h1, _, _⟩ := h.hist
  rw [h1]; rfl

theorem before_read {w : World} {uri : Bytes} {user : Option (Bytes × Bytes)} {c c' : Client} (hb : Before w uri user c) (h : clientRead w c = .ok c') :
    Before w uri user c' := by
  obtain ⟨⟨early, o, h1, h2, h3, h4, h5, h6⟩, k1, k2, k3, k4, k5, k6, k7⟩ := hb
  have hb : Before w uri user c := ⟨⟨early, o, h1, h2, h3, h4, h5, h6⟩, k1, k2, k3, k4, k5, k6, k7⟩
  unfold clientRead at h
  split at h
  · rename_i hgo
    split at h
    · injection h with h; subst h; exact ⟨⟨early, o, h1, h2, h3, h4, h5, h6⟩, k1, k2, k3, k4, k5, k6, k7⟩
    · injection h with h; subst h; exact ⟨⟨early, o, h1, h2, h3, h4, h5, h6⟩, k1, k2, k3, k4, k5, k6, k7⟩
    · rename_i item r hq
      cases hs : handleItem w c.sess item with
      | error p => rw [hs] at h; cases h
      | ok r' =>
        obtain ⟨s, e⟩ := r'
        rw [hs] at h
        injection h with h; subst h
        rw [h4] at hs
        have hrun : run w newSession (.dial uri .tcp user :: (early ++ [.item item])) = .ok s := run_glue _ h3 (by
          unfold run
          rw [show step w (dialled uri .tcp user o) (.item item) = .ok (s, e) from hs]
          rfl)
        have hby : ∀ op ∈ early ++ [Op.item item], ByItself op := by
          intro op hop
          rcases List.mem_append.1 hop with hop | hop
          · exact h1 op hop
          · rw [List.mem_singleton] at hop; subst hop; trivial
        rcases dialled_item hs with ⟨ch, p, _, _, rfl⟩ | ⟨rsp, _, _, rfl⟩
        · rw [adopt_eq (c := { c with rdr := r, running := goesOn e }) (o := [.data ch p]) (by dsimp only; rw [h4]; rfl)]
          refine ⟨⟨early ++ [.item item], .data ch p :: o, hby, incoming0_cons h2 (.inl ⟨ch, p, rfl⟩), hrun, rfl, ?_, ?_⟩, ?_, ?_, k3, k4, k5, k6, k7⟩
          · dsimp only; rw [h5]; rfl
          · dsimp only; rw [h6]; simp [sentData]
          · dsimp only; rw [k1]; rfl
          · have : c.data.length ≤ 20 := hgo.2.2
            simp [sentData]; omega
        · rw [adopt_eq (c := { c with rdr := r, running := goesOn e }) (o := [.got rsp]) (by dsimp only; rw [h4]; rfl)]
          refine ⟨⟨early ++ [.item item], .got rsp :: o, hby, incoming0_cons h2 (.inr ⟨rsp, rfl⟩), hrun, rfl, ?_, ?_⟩, ?_, ?_, k3, k4, k5, k6, k7⟩
          · dsimp only; rw [h5]; rfl
          · dsimp only; rw [h6]; simp [sentData]
          · dsimp only; rw [k1]; rfl
          · simpa [sentData] using k2
  · injection h with h; subst h; exact hb

theorem before_turns {w : World} {uri : Bytes} {user : Option (Bytes × Bytes)} (n : Nat) : ∀ {c c' : Client}, Before w uri user c →
    clientEarly.turns w n c = .ok c' → Before w uri user c' := by
  induction n with
  | zero => intro c c' hb h; injection h with h; subst h; exact hb
  | succ n ih =>
    intro c c' hb h
    unfold clientEarly.turns at h
    cases hr : clientRead w c with
    | error p => rw [hr] at h; cases h
    | ok d => rw [hr] at h; exact ih (before_read hb hr) h

theorem before_dial {w : World} {uri : Bytes} {user : Option (Bytes × Bytes)} {rdr : Rdr} :
    Before w uri user { rdr, sess := { newSession with opened := true, baseURI := uri, proto := .tcp, user := user } } :=
  ⟨⟨[], [], fun _ h => by (cases h), fun _ h => by (cases h), rfl, rfl, rfl, rfl⟩, rfl, Nat.zero_le _, rfl, rfl, rfl, rfl, rfl⟩

/-- `Open`: first some turns of `process`, then OPTIONS. -/
theorem early_before {w : World} {uri : Bytes} {user : Option (Bytes × Bytes)} {rdr : Rdr} {n : Nat} {c : Client} (h : clientEarly w uri user rdr n = .ok c) :
    ∃ b, Before w uri user b ∧ clientEarly.turns w n { rdr, sess := { newSession with opened := true, baseURI := uri, proto := .tcp, user := user } } = .ok b ∧
      b.order (command w b.sess verbOptions uri []) = .ok c ∧ b.order (b.sess.deref (command w b.sess verbOptions uri [])) = .ok c := by
  unfold clientEarly at h
  split at h
  · cases h
  · rename_i b ht
    have hb := before_turns n before_dial ht
    have hu : b.sess.baseURI = uri := by obtain ⟨_, o, _, _, _, h1, _, _⟩ := hb.hist; rw [h1]; rfl
    unfold Sess.options at h
    rw [hu] at h
    refine ⟨b, hb, ht, ?_, h⟩
    rw [deref_open hb.opened] at h
    exact h

theorem Before.acts {w : World} {uri : Bytes} {user : Option (Bytes × Bytes)} {c : Client} (h : Before w uri user c) :
    ∀ a ∈ c.trace, (∃ ch p, a = .wire (.data ch p)) ∨ ∃ rsp, a = .wire (.got rsp) := by
  obtain ⟨_, o, _, h2, _, _, h5, _⟩ := h.hist
  intro a ha
  rw [h5] at ha
  obtain ⟨x, hx, rfl⟩ := List.mem_map.1 ha
  rcases h2 x hx with ⟨ch, p, rfl⟩ | ⟨rsp, rfl⟩
  · exact .inl ⟨ch, p, rfl⟩
  · exact .inr ⟨rsp, rfl⟩

theorem acts_seen {t : List Act} (h : ∀ a ∈ t, (∃ ch p, a = .wire (.data ch p)) ∨ ∃ rsp, a = .wire (.got rsp)) : seen t = [] ∧ reported t = [] ∧ lastStage t = 0 := by
  induction t with
  | nil => exact ⟨rfl, rfl, rfl⟩
  | cons a t ih =>
    have ih := ih fun x hx => h x (by simp [hx])
    rcases h a (by simp) with ⟨ch, p, rfl⟩ | ⟨rsp, rfl⟩ <;> exact ih

theorem Before.frames {w : World} {uri : Bytes} {user : Option (Bytes × Bytes)} {c : Client} (h : Before w uri user c) : framesRead c.trace = c.data := by
  obtain ⟨_, o, _, h2, h3, h4, h5, h6⟩ := h.hist
  rw [h5, h6]
  clear h3 h4 h5 h6
  unfold sentData
  induction o with
  | nil => rfl
  | cons x o ih =>
    have ih := ih fun y hy => h2 y (by simp [hy])
    rw [List.reverse_cons, List.filterMap_append, ← ih]
    rcases h2 x (by simp) with ⟨ch, p, rfl⟩ | ⟨rsp, rfl⟩
    · rfl
    · exact (List.append_nil _).symm

theorem early_zero (w : World) (uri : Bytes) (user : Option (Bytes × Bytes)) (rdr : Rdr) : clientEarly w uri user rdr 0 = clientOpen w uri user rdr := rfl

theorem open_inv {w : World} {uri : Bytes} {user : Option (Bytes × Bytes)} {rdr : Rdr} {n : Nat} {c : Client} (h : clientEarly w uri user rdr n = .ok c) : CInv w c := by
  obtain ⟨b, hb, _, h, _⟩ := early_before h
  obtain ⟨s, req, res, e, hc, ho, hverb, hqueue, hstage, hcase⟩ := order_out (verb := verbOptions) (uri := uri) (hs := []) hb.opened h
  obtain ⟨early, o, h1, h2, h3, h4, h5, h6⟩ := hb.hist
  have hreach : PlainReachable w s := plain_of (ops := []) h1 (fun _ h => by (cases h)) h3 (h4 ▸ hc) rfl
  have hown : Own req.verb := by rw [hverb]; exact .inl rfl
  have ha := adopt_eq b (s := s) (o := [.sent false req res]) ho
  have hmil : milestones (.wire (.sent false req res) :: b.trace) = [] := by
    rw [milestones_dull (a := .wire (.sent false req res)) hown, h5]
    have := milestones_dulls (as := o.map .wire) (fun a ha => by
      obtain ⟨x, hx, rfl⟩ := List.mem_map.1 ha
      rcases h2 x hx with ⟨ch, p, rfl⟩ | ⟨rsp, rfl⟩ <;> trivial) []
    rw [List.append_nil] at this
    exact this
  rcases hcase with ⟨_, rfl⟩ | ⟨_, rfl⟩
  · rw [ha]
    refine ⟨hreach, 0, by omega, hmil, fun _ => .waiting 0 (by omega) ?_ hb.state ⟨hb.armed, hb.fired⟩ (fun v hv => ?_) (fun h => by omega)⟩
    · dsimp only; rw [hb.states]; rfl
    · show cnt v s.queue ≤ _
      rw [hqueue, h4]
      have := cnt_insert v [] req
      rw [if_neg (fun e => hv (by rw [← e]; exact hown))] at this
      exact Nat.le_trans this (Nat.zero_le _)
  · rw [ha]
    exact ⟨hreach, 0, by omega, (milestones_dull (a := .ended .fatal) trivial _).trans hmil, fun he => by (cases he)⟩

theorem client_inv {w : World} {c : Client} (h : ClientReachable w c) : CInv w c := by
  obtain ⟨uri, user, rdr, n, c0, es, h1, h2⟩ := h
  exact csteps_inv es (open_inv h1) h2

end Ouro
