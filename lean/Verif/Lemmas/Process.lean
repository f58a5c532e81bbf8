import Verif.Spec.Process
import Verif.Props.Commands
import Verif.Lemmas.Authorize
/-! # Lemmas about the reading goroutine with its clock -/
namespace Ouro
open Spec

/-- Same connection; more was observed, but no keep-alive. -/
def Steady (s s' : Sess) : Prop := s'.proto = s.proto ∧ s'.opened = s.opened ∧ ∃ a, s'.out = a ++ s.out ∧ ∀ o ∈ a, ¬ IsKeepAlive o

theorem Steady.refl (s : Sess) : Steady s s := ⟨rfl, rfl, [], rfl, fun _ h => by cases h⟩

theorem Steady.trans {s t u : Sess} (h1 : Steady s t) (h2 : Steady t u) : Steady s u := by
  obtain ⟨p1, o1, a1, e1, n1⟩ := h1
  obtain ⟨p2, o2, a2, e2, n2⟩ := h2
  refine ⟨p2.trans p1, o2.trans o1, a2 ++ a1, by rw [e2, e1, List.append_assoc], ?_⟩
  intro o ho
  rcases List.mem_append.1 ho with h | h
  · exact n2 o h
  · exact n1 o h

theorem Steady.same {s t : Sess} (hp : t.proto = s.proto) (ho : t.opened = s.opened) (h : t.out = s.out) : Steady s t :=
  ⟨hp, ho, [], h, fun _ h => by cases h⟩

theorem Steady.one {s t : Sess} (o : Out) (hp : t.proto = s.proto) (ho : t.opened = s.opened) (h : t.out = o :: s.out) (hn : ¬ IsKeepAlive o) : Steady s t :=
  ⟨hp, ho, [o], h, fun x hx => by rw [List.mem_singleton] at hx; subst hx; exact hn⟩

theorem steady_command {w : World} {s s' : Sess} {verb uri : Bytes} {hs : Header} {e : Option SErr}
    (hk : ¬ (verb = b!"OPTIONS" ∧ b!"Session" ∈ (hs.foldl (fun (h : Header) e => h.set e.1 e.2) []).map Prod.fst)) (h : command w s verb uri hs = .ok (s', e)) : Steady s s' := by
  rcases command_out h with ⟨_, rfl, _⟩ | ⟨_, _, a, x, res, rfl, _⟩
  · exact .refl _
  · exact .one _ rfl rfl rfl (fun h => hk h.2)

theorem steady_setupLoop {w : World} (fs : List Feed) : ∀ {done : List Feed} {s s' : Sess} {e : Option SErr}, setupLoop w done fs s = .ok (s', e) → Steady s s' := by
  induction fs with
  | nil => intro done s s' e h; injection h with h; injection h with h _; subst h; exact .refl _
  | cons f fs ih =>
    intro done s s' e h
    unfold setupLoop at h
    cases hc : command w s verbSetup (setupURI s.baseURI f.media.control) [(b!"Transport", f.transportHeader)] with
    | error p => rw [hc] at h; cases h
    | ok r =>
      obtain ⟨t, x⟩ := r
      rw [hc] at h
      have h1 := steady_command (fun hk => absurd hk.1 (by decide)) hc
      cases x with
      | some x => injection h with h; injection h with h _; subst h; exact h1
      | none =>
        have h2 : Steady t _ := .same (t := { t with feeds := done ++ { f with cseq := t.cseq } :: fs }) rfl rfl rfl
        exact (h1.trans h2).trans (ih h)

theorem steady_addSink {w : World} {s s' : Sess} {ch : UInt8} {port : Int} {e : Option SErr} (h : addSink w s ch port = (s', e)) : Steady s s' := by
  unfold addSink at h
  split at h <;> (injection h with h _; subst h; exact .same rfl rfl rfl)

theorem steady_setupAnswer {w : World} {rsp : Response} (fs : List Feed) : ∀ {done : List Feed} {s s' : Sess} {e : Option SErr},
    setupAnswer w rsp done fs s = .ok (s', e) → Steady s s' := by
  induction fs with
  | nil => intro done s s' e h; injection h with h; injection h with h _; subst h; exact .refl _
  | cons f fs ih =>
    intro done s s' e h
    unfold setupAnswer at h
    split at h
    · split at h
      · cases h
      · next f' x hf =>
        dsimp only at h
        obtain ⟨t, ht⟩ : ∃ t, t = ({ s with feedidx := s.feedidx + 1, feeds := done ++ f' :: fs } : Sess) := ⟨_, rfl⟩
        have h0 : Steady s t := by rw [ht]; exact .same rfl rfl rfl
        rw [← ht] at h
        split at h
        · injection h with h; injection h with h _; subst h; exact h0
        · split at h
          · exact h0.trans (ih h)
          · split at h
            · next s1 x hs => injection h with h; injection h with h _; subst h; exact h0.trans (steady_addSink hs)
            · next s1 hs =>
              have h1 := h0.trans (steady_addSink hs)
              split at h
              · next s2 x hs => injection h with h; injection h with h _; subst h; exact h1.trans (steady_addSink hs)
              · next s2 hs => exact (h1.trans (steady_addSink hs)).trans (ih h)
    · exact ih h

theorem steady_ready (s : Sess) : Steady s (checkReady s) := by
  unfold checkReady
  split
  · exact (Steady.one (s := s) (t := notify s stageReady) (.notified stageReady) rfl rfl rfl (fun h => h)).trans (Steady.one (s := notify s stageReady) (t := { notify s stageReady with out := .started s.sinks :: (notify s stageReady).out }) (.started s.sinks) rfl rfl rfl (fun h => h))
  · exact .refl _

theorem steady_setup {w : World} {s s' : Sess} {rsp : Response} {e : Option SErr} (h : handleSetup w s rsp = .ok (s', e)) : Steady s s' := by
  unfold handleSetup at h
  split at h
  · split at h
    · cases h
    · next t x ht => injection h with h; injection h with h _; subst h; exact steady_setupAnswer _ ht
    · next t ht => injection h with h; injection h with h _; subst h; exact (steady_setupAnswer _ ht).trans (steady_ready t)
  · split at h
    · injection h with h; injection h with h _; subst h
      exact (Steady.same (t := { s with feedidx := s.feedidx + 1 }) rfl rfl rfl).trans (steady_ready _)
    · injection h with h; injection h with h _; subst h; exact steady_ready s

theorem steady_notify (s : Sess) (k : Nat) : Steady s (notify s k) := .one (.notified k) rfl rfl rfl (fun h => h)

theorem steady_answer {w : World} {s s' : Sess} {verb : Bytes} {rsp : Response} {e : Option SErr} (h : answer w s verb rsp = .ok (s', e)) : Steady s s' := by
  unfold answer at h
  split at h
  · split at h
    · have h2 := steady_command (fun hk => absurd hk.1 (by decide)) (deref_ok h)
      exact (Steady.same (t := { s with verbs := s.verbs ++ split2 44 32 (rsp.header.get b!"Public") }) rfl rfl rfl).trans h2
    · injection h with h; injection h with h _; subst h; exact .refl _
  · split at h
    · split at h
      · split at h
        · cases h
        · next feeds _ => exact (Steady.same (t := { s with feeds := feeds }) rfl rfl rfl).trans (steady_setupLoop _ h)
      · injection h with h; injection h with h _; subst h; exact .refl _
    · split at h
      · injection h with h; injection h with h _; subst h; split
        · exact steady_notify s _
        · exact .refl _
      · split at h
        · injection h with h; injection h with h _; subst h; split
          · exact steady_notify s _
          · exact .refl _
        · split at h
          · injection h with h; injection h with h _; subst h; split
            · exact steady_notify s _
            · exact .refl _
          · split at h
            · exact steady_setup h
            · injection h with h; injection h with h _; subst h; exact .refl _

theorem steady_item {w : World} {s s' : Sess} {i : Item} {e : Option SErr} (h : handleItem w s i = .ok (s', e)) : Steady s s' := by
  cases i with
  | frame ch p => injection h with h; injection h with h _; subst h; exact .one (.data ch p) rfl rfl rfl (fun h => h)
  | response rsp =>
    have h : handleRtsp w { s with out := .got rsp :: s.out } rsp = .ok (s', e) := h
    have h0 : Steady s { s with out := .got rsp :: s.out } := .one (.got rsp) rfl rfl rfl (fun h => h)
    unfold handleRtsp at h
    split at h
    · injection h with h; injection h with h _; subst h; exact h0
    · next req _ =>
      have h1 : Steady s (({ s with out := .got rsp :: s.out } : Sess).remove rsp.cseq) := h0.trans (.same rfl rfl rfl)
      split at h
      · rcases retry_out h with ⟨x, rfl, _⟩ | ⟨a, x, res, rfl, _⟩
        · exact h1.trans (.same rfl rfl rfl)
        · exact h1.trans (.one _ rfl rfl rfl (fun h => absurd h.1 (by decide)))
      · rw [learnSession_eq] at h
        have h2 := steady_answer h
        exact (h1.trans (.same rfl rfl rfl)).trans h2

theorem steady_call {w : World} {s s' : Sess} {c : Call} {e : Option SErr} (h : step w s c.op = .ok (s', e)) : Steady s s' := by
  cases c with
  | options => exact steady_command (fun hk => absurd hk.2 (by decide)) (deref_ok h)
  | describe => exact steady_command (fun hk => absurd hk.1 (by decide)) (deref_ok h)
  | setup => exact steady_setupLoop _ h
  | play => exact steady_command (fun hk => absurd hk.1 (by decide)) (deref_ok h)
  | pause => exact steady_command (fun hk => absurd hk.1 (by decide)) (deref_ok h)
  | teardown => exact steady_command (fun hk => absurd hk.1 (by decide)) (deref_ok h)

theorem added_of {s s' : Sess} {a : List Out} (h : s'.out = a ++ s.out) : added s s' = a := by
  unfold added
  rw [h, List.length_append, Nat.add_sub_cancel]
  exact List.take_left

theorem keepAliveTimes_append (a b : List (Nat × Out)) : keepAliveTimes (a ++ b) = keepAliveTimes a ++ keepAliveTimes b := by
  unfold keepAliveTimes; rw [List.filter_append, List.map_append]

theorem keepAliveTimes_none {t : Nat} {a : List Out} (h : ∀ o ∈ a, ¬ IsKeepAlive o) : keepAliveTimes (a.map fun o => (t, o)) = [] := by
  unfold keepAliveTimes
  rw [List.filter_eq_nil_iff.2, List.map_nil]
  intro x hx
  obtain ⟨o, ho, rfl⟩ := List.mem_map.1 hx
  simpa using h o ho

/-- What holds at time `t`. -/
structure ClockInv (w : World) (proto : Proto) (t : Nat) (p : Clocked) : Prop where
  reach : Reachable w p.sess
  proto : p.sess.proto = proto
  opened : p.sess.opened = true
  log : p.log.map Prod.snd = p.sess.out
  last : p.last = (keepAliveTimes p.log).head?
  spaced : (keepAliveTimes p.log).Pairwise fun later earlier => earlier + 2000 ≤ later
  past : ∀ x ∈ keepAliveTimes p.log, x ≤ t

theorem ClockInv.later {w : World} {proto : Proto} {t t' : Nat} {p : Clocked} (h : ClockInv w proto t p) (ht : t ≤ t') : ClockInv w proto t' p :=
  { h with past := fun x hx => Nat.le_trans (h.past x hx) ht }

theorem reachable_step {w : World} {s s' : Sess} {op : Op} {e : Option SErr} (h : Reachable w s) (hs : step w s op = .ok (s', e)) : Reachable w s' := by
  obtain ⟨ops, h⟩ := h
  refine ⟨ops ++ [op], ?_⟩
  rw [run_append ops [op] h]
  unfold run
  rw [hs]
  rfl

/-- A step without a keep-alive. -/
theorem ClockInv.steady {w : World} {proto : Proto} {t t' : Nat} {p : Clocked} (h : ClockInv w proto t p) (ht : t ≤ t') {s : Sess} {op : Op} {e : Option SErr}
    (hs : step w p.sess op = .ok (s, e)) (hk : Steady p.sess s) (r : Rdr) (b : Bool) : ClockInv w proto t' ({ p with rdr := r, running := b }.adopt t' s) := by
  obtain ⟨hp, ho, a, ha, hn⟩ := hk
  have hadd : added p.sess s = a := added_of ha
  have hkt : keepAliveTimes ((added p.sess s).map (fun o => (t', o)) ++ p.log) = keepAliveTimes p.log := by
    rw [hadd, keepAliveTimes_append, keepAliveTimes_none hn, List.nil_append]
  exact
    { reach := reachable_step h.reach hs
      proto := hp.trans h.proto
      opened := ho.trans h.opened
      log := by
        show ((added p.sess s).map (fun o => (t', o)) ++ p.log).map Prod.snd = s.out
        rw [List.map_append, List.map_map, h.log, ha, hadd]
        congr 1
        exact List.map_id _
      last := h.last.trans (by show _ = (keepAliveTimes ((added p.sess s).map (fun o => (t', o)) ++ p.log)).head?; rw [hkt])
      spaced := by show (keepAliveTimes ((added p.sess s).map (fun o => (t', o)) ++ p.log)).Pairwise _; rw [hkt]; exact h.spaced
      past := by
        intro x hx
        have hx : x ∈ keepAliveTimes ((added p.sess s).map (fun o => (t', o)) ++ p.log) := hx
        rw [hkt] at hx
        exact Nat.le_trans (h.past x hx) ht }

/-- Whether a keep-alive is due, in terms of the log. -/
theorem due_iff {w : World} {proto : Proto} {t now : Nat} {p : Clocked} (h : ClockInv w proto t p) (ht : t ≤ now) :
    p.due now = true ↔ ∀ x ∈ keepAliveTimes p.log, x + 2000 ≤ now := by
  unfold Clocked.due
  rw [h.last]
  have hs := h.spaced
  have hp := h.past
  revert hs hp
  cases keepAliveTimes p.log with
  | nil => intro _ _; simp
  | cons l ls =>
    intro hs hp
    have hl := hp l (by simp)
    rw [List.pairwise_cons] at hs
    show decide (2000 ≤ now - l) = true ↔ _
    rw [decide_eq_true_eq, List.forall_mem_cons]
    constructor
    · intro h
      refine ⟨by omega, fun x hx => ?_⟩
      have := hs.1 x hx
      omega
    · intro h
      omega

theorem inUse_iff {w : World} {proto : Proto} {t : Nat} {p : Clocked} (h : ClockInv w proto t p) :
    p.sess.inUse = true ↔ (proto = .unicast ∨ proto = .multicast) ∧ InUse p.log := by
  have hst : p.sess.stage = stageNow p.sess.out := stageOk_reachable h.reach
  unfold Sess.inUse InUse
  rw [h.log, decide_eq_true_eq, h.proto, hst]
  have hp : (proto ≠ .http ∧ proto ≠ .tcp) ↔ (proto = .unicast ∨ proto = .multicast) := by cases proto <;> simp
  unfold stageInit stageDone
  dsimp only
  constructor
  · rintro ⟨h1, h2, h3, h4⟩; exact ⟨hp.1 ⟨h1, h2⟩, by omega⟩
  · rintro ⟨h1, h2⟩; have := hp.2 h1; exact ⟨this.1, this.2, by omega, by omega⟩

/-- `KeepAlive`, in terms of the log. -/
theorem keepAlive_clock {w : World} {proto : Proto} {t now now' : Nat} {p p' : Clocked} {e : Option SErr} (h : ClockInv w proto t p) (h1 : t ≤ now) (h2 : now ≤ now')
    (hs : procKeepAlive w p now now' = .ok (p', e)) :
    ClockInv w proto now' p' ∧ p'.rdr = p.rdr ∧ p'.running = p.running ∧
    (if ((proto = .unicast ∨ proto = .multicast) ∧ InUse p.log) ∧ ∀ x ∈ keepAliveTimes p.log, x + 2000 ≤ now then
      ∃ o, p'.log = (now', o) :: p.log ∧ IsKeepAlive o
    else p' = p ∧ e = none) := by
  unfold procKeepAlive at hs
  by_cases hc : (p.sess.inUse && p.due now) = true
  · rw [if_pos hc] at hs
    rw [Bool.and_eq_true] at hc
    have hdue := (due_iff h h1).1 hc.2
    rw [if_pos ⟨(inUse_iff h).1 hc.1, hdue⟩]
    cases hk : p.sess.keepAlive w true with
    | error x => rw [hk] at hs; cases hs
    | ok r =>
      obtain ⟨s, e'⟩ := r
      rw [hk] at hs
      injection hs with hs; injection hs with hs he
      have hu := hc.1
      unfold Sess.inUse at hu
      rw [decide_eq_true_eq] at hu
      have hk' := deref_ok hk
      rw [if_pos ⟨hu.1, hu.2.1, hu.2.2.1, hu.2.2.2, rfl⟩] at hk'
      rcases command_out hk' with ⟨ho, _⟩ | ⟨_, _, a, x, res, hse, _⟩
      · rw [h.opened] at ho; cases ho
      · obtain ⟨o, ho⟩ : ∃ o, o = Out.sent false ⟨verbOptions, p.sess.cseq + 1, p.sess.baseURI, a, p.sess.session,
            [(b!"Session", p.sess.session)].foldl (fun (h : Header) e => h.set e.1 e.2) []⟩ res := ⟨_, rfl⟩
        have hout : s.out = [o] ++ p.sess.out := by rw [hse, ho]; rfl
        have hadd : added p.sess s = [o] := added_of hout
        have hio : IsKeepAlive o := by
          rw [ho]
          refine ⟨rfl, rfl, ?_⟩
          show b!"Session" ∈ [canonKey b!"Session"]
          decide
        have hlog : p'.log = (now', o) :: p.log := by
          rw [← hs]
          show (added p.sess s).map (fun o => (now', o)) ++ p.log = _
          rw [hadd]; rfl
        have hkt : keepAliveTimes p'.log = now' :: keepAliveTimes p.log := by
          rw [hlog]
          unfold keepAliveTimes
          rw [List.filter_cons_of_pos (by simpa using hio)]
          rfl
        refine ⟨?_, by rw [← hs]; rfl, by rw [← hs]; rfl, o, hlog, hio⟩
        exact
          { reach := by rw [← hs]; exact reachable_step h.reach (op := .keepAlive true) hk
            proto := by rw [← hs]; show s.proto = proto; rw [hse]; exact h.proto
            opened := by rw [← hs]; show s.opened = true; rw [hse]; exact h.opened
            log := by
              rw [hlog, List.map_cons, h.log, ← hs]
              show o :: p.sess.out = s.out
              rw [hout]; rfl
            last := by rw [hkt, ← hs]; rfl
            spaced := by
              rw [hkt, List.pairwise_cons]
              exact ⟨fun x hx => Nat.le_trans (hdue x hx) h2, h.spaced⟩
            past := by
              rw [hkt]
              intro x hx
              rcases List.mem_cons.1 hx with rfl | hx
              · exact Nat.le_refl _
              · exact Nat.le_trans (h.past x hx) (Nat.le_trans h1 h2) }
  · rw [if_neg hc] at hs
    injection hs with hs; injection hs with hs he
    subst hs
    rw [if_neg]
    · exact ⟨h.later (Nat.le_trans h1 h2), rfl, rfl, rfl, he.symm⟩
    · rintro ⟨ha, hb⟩
      exact hc (by rw [Bool.and_eq_true]; exact ⟨(inUse_iff h).2 ha, (due_iff h h1).2 hb⟩)

theorem receive_clock {w : World} {proto : Proto} {t t' : Nat} {p p' : Clocked} (h : ClockInv w proto t p) (ht : t ≤ t') (hs : procReceive w p t' = .ok p') :
    ClockInv w proto t' p' ∧ keepAliveTimes p'.log = keepAliveTimes p.log := by
  unfold procReceive at hs
  split at hs
  · injection hs with hs; subst hs; exact ⟨{ h.later ht with }, rfl⟩
  · injection hs with hs; subst hs; exact ⟨{ h.later ht with }, rfl⟩
  · next item r _ =>
    split at hs
    · cases hs
    · next s e hi =>
      injection hs with hs; subst hs
      have hst := steady_item hi
      refine ⟨h.steady ht (op := .item item) hi hst r (goesOn e), ?_⟩
      obtain ⟨_, _, a, ha, hn⟩ := hst
      show keepAliveTimes ((added p.sess s).map (fun o => (t', o)) ++ p.log) = _
      rw [added_of ha, keepAliveTimes_append, keepAliveTimes_none hn, List.nil_append]

theorem turn_clock {w : World} {proto : Proto} {t now now' t' : Nat} {p p' : Clocked} (h : ClockInv w proto t p) (h1 : t ≤ now) (h2 : now ≤ now') (h3 : now' ≤ t')
    (hs : procTurn w p now now' t' = .ok p') : ClockInv w proto t' p' := by
  unfold procTurn at hs
  split at hs
  · split at hs
    · cases hs
    · next q e hk =>
      have hq := (keepAlive_clock h h1 h2 hk).1
      split at hs
      · injection hs with hs; subst hs; exact { hq.later h3 with }
      · exact (receive_clock hq h3 hs).1
  · injection hs with hs; subst hs; exact h.later (by omega)

theorem call_clock {w : World} {proto : Proto} {t t' : Nat} {p p' : Clocked} {c : Call} (h : ClockInv w proto t p) (ht : t ≤ t') (hs : pstep w p (.call c t') = .ok p') :
    ClockInv w proto t' p' := by
  unfold pstep at hs
  dsimp only at hs
  split at hs
  · cases hs
  · next s e hc => injection hs with hs; subst hs; exact h.steady ht hc (steady_call hc) p.rdr p.running

theorem psteps_inv {w : World} {proto : Proto} (es : List PEv) : ∀ {t : Nat} {p p' : Clocked}, ClockInv w proto t p → Ticks t es → psteps w p es = .ok p' →
    ClockInv w proto (endTime t es) p' := by
  induction es with
  | nil => intro t p p' h _ hs; injection hs with hs; subst hs; exact h
  | cons e es ih =>
    intro t p p' h ht hs
    unfold psteps at hs
    cases hp : pstep w p e with
    | error x => rw [hp] at hs; cases hs
    | ok q =>
      rw [hp] at hs
      cases e with
      | turn a b c => exact ih (turn_clock h ht.1 ht.2.1 ht.2.2.1 hp) ht.2.2.2 hs
      | call k a => exact ih (call_clock h ht.1 hp) ht.2 hs

theorem opened_clock {w : World} {t : Nat} {uri : Bytes} {proto : Proto} {user : Option (Bytes × Bytes)} {rdr : Rdr} {p : Clocked}
    (h : procOpen w t uri proto user rdr = .ok p) : ClockInv w proto t p := by
  unfold procOpen at h
  split at h
  · cases h
  · next s e hs =>
    injection h with h
    have hc : command w { newSession with opened := true, baseURI := uri, proto := proto, user := user } verbOptions uri [] = .ok (s, e) := hs
    obtain ⟨hp, ho, a, ha, hn⟩ := steady_command (fun hk => absurd hk.2 (by decide)) hc
    have hadd : added newSession s = a := added_of ha
    have hkt : keepAliveTimes p.log = [] := by
      rw [← h]
      show keepAliveTimes ((added newSession s).map (fun o => (t, o)) ++ []) = _
      rw [hadd, List.append_nil, keepAliveTimes_none hn]
    exact
      { reach := by rw [← h]; exact reachable_step ⟨[], rfl⟩ hs
        proto := by rw [← h]; exact hp
        opened := by rw [← h]; exact ho
        log := by
          rw [← h]
          show ((added newSession s).map (fun o => (t, o)) ++ []).map Prod.snd = s.out
          rw [hadd, List.append_nil, List.map_map, ha]
          show a.map id = a ++ []
          rw [List.map_id, List.append_nil]
        last := by rw [hkt, ← h]; rfl
        spaced := by rw [hkt]; exact .nil
        past := by rw [hkt]; intro x hx; cases hx }

theorem reachable_clock {w : World} {proto : Proto} {t : Nat} {p : Clocked} (h : ProcReachable w proto t p) : ClockInv w proto t p := by
  obtain ⟨t0, uri, user, rdr, p0, es, h1, h2, h3, h4⟩ := h
  exact (psteps_inv es (opened_clock h1) h2 h3).later h4

end Ouro
