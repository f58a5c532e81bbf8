import Verif.Spec.Ports
import Verif.Props.Listen
import Verif.Props.Process
/-! # C125: ports that cannot be listened on -/
namespace Ouro
open Spec

/-! ## What a step does about listeners -/

theorem AllListening.snoc {w : World} {ks : List (UInt8 × Int)} {ch : UInt8} {p : Int} {o : List Out} (h : AllListening w ks) (hp : w.listen o ks p = .ok) :
    AllListening w (ks ++ [(ch, p)]) := by
  intro pre x post e
  rcases List.eq_nil_or_concat post with rfl | ⟨post', y, rfl⟩
  · obtain ⟨rfl, hx⟩ := List.append_inj' e rfl
    injection hx with hx _
    subst hx
    exact ⟨o, hp⟩
  · rw [List.concat_eq_append, ← List.cons_append, ← List.append_assoc] at e
    obtain ⟨e, _⟩ := List.append_inj' e rfl
    exact h pre x post' e

/-- What a step does about listeners. -/
structure Lst (w : World) (s s' : Sess) (e : Option SErr) : Prop where
  sinks : AllListening w s.sinks → AllListening w s'.sinks
  out : ∃ o, s'.out = o ++ s.out ∧ ∀ ks, .started ks ∈ o → ks = s'.sinks
  err : ∀ b, e = some (.listen b) → s'.out = s.out ∧ ∃ port, w.listen s'.out s'.sinks port = if b then .timeout else .failed

theorem Lst.refl (w : World) (s : Sess) (e : Option SErr) (he : ∀ b, e ≠ some (.listen b)) : Lst w s s e := ⟨id, ⟨[], rfl, fun _ h => by (cases h)⟩, fun b h => absurd h (he b)⟩

theorem addSink_lst (w : World) (s : Sess) (ch : UInt8) (port : Int) : Lst w s (addSink w s ch port).1 (addSink w s ch port).2 := by
  unfold addSink
  cases h : w.listen s.out s.sinks port with
  | ok => exact ⟨fun h' => AllListening.snoc h' h, ⟨[], rfl, fun _ h => by (cases h)⟩, fun b h => by (cases h)⟩
  | timeout => exact ⟨id, ⟨[], rfl, fun _ h => by (cases h)⟩, fun b e => ⟨rfl, port, by injection e with e; injection e with e; subst e; exact h⟩⟩
  | failed => exact ⟨id, ⟨[], rfl, fun _ h => by (cases h)⟩, fun b e => ⟨rfl, port, by injection e with e; injection e with e; subst e; exact h⟩⟩

theorem setupAnswer_lst {w : World} {rsp : Response} (fs : List Feed) : ∀ {done : List Feed} {s s' : Sess} {e : Option SErr}, setupAnswer w rsp done fs s = .ok (s', e) →
    (AllListening w s.sinks → AllListening w s'.sinks) ∧ s'.out = s.out ∧ ∀ b, e = some (.listen b) → ∃ port, w.listen s'.out s'.sinks port = if b then .timeout else .failed := by
  induction fs with
  | nil => intro done s s' e h; injection h with h; injection h with h h2; subst h h2; exact ⟨id, rfl, fun b h => by (cases h)⟩
  | cons f fs ih =>
    intro done s s' e h
    unfold setupAnswer at h
    by_cases hc : f.cseq = rsp.cseq
    · rw [if_pos hc] at h
      cases ht : f.transportSetup w.inf (rsp.header.get b!"Transport") with
      | error p => rw [ht] at h; cases h
      | ok r =>
        obtain ⟨f', x⟩ := r
        rw [ht] at h
        dsimp only at h
        cases x with
        | some x => injection h with h; injection h with h h2; subst h h2; exact ⟨id, rfl, fun b h => by (cases h)⟩
        | none =>
          dsimp only at h
          split at h
          · exact ih (s := { s with feedidx := s.feedidx + 1, feeds := done ++ f' :: fs }) h
          · have a1 := addSink_lst w { s with feedidx := s.feedidx + 1, feeds := done ++ f' :: fs } (UInt8.ofNat (s.feedidx + 1) * 2) f'.transp.port.one
            have o1 := addSink_core w { s with feedidx := s.feedidx + 1, feeds := done ++ f' :: fs } (UInt8.ofNat (s.feedidx + 1) * 2) f'.transp.port.one
            split at h
            · next s1 e1 h1 =>
              injection h with h; injection h with h h2; subst h h2
              rw [h1] at a1 o1
              exact ⟨a1.sinks, o1.2.2.2, fun b hb => (a1.err b hb).2⟩
            · next s1 h1 =>
              rw [h1] at a1 o1
              have a2 := addSink_lst w s1 (UInt8.ofNat (s.feedidx + 1) * 2 + 1) f'.transp.port.two
              have o2 := addSink_core w s1 (UInt8.ofNat (s.feedidx + 1) * 2 + 1) f'.transp.port.two
              split at h
              · next s2 e2 h2 =>
                injection h with h; injection h with h h3; subst h h3
                rw [h2] at a2 o2
                exact ⟨fun hs => a2.sinks (a1.sinks hs), o2.2.2.2.trans o1.2.2.2, fun b hb => (a2.err b hb).2⟩
              · next s2 h2 =>
                rw [h2] at a2 o2
                obtain ⟨i1, i2, i3⟩ := ih h
                exact ⟨fun hs => i1 (a2.sinks (a1.sinks hs)), i2.trans (o2.2.2.2.trans o1.2.2.2), i3⟩
    · rw [if_neg hc] at h
      exact ih h

theorem command_lst {w : World} {s s' : Sess} {verb uri : Bytes} {hs : Header} {e : Option SErr} (h : command w s verb uri hs = .ok (s', e)) : Lst w s s' e := by
  rcases command_out h with ⟨_, rfl, rfl⟩ | ⟨_, _, a, x, res, rfl, rfl⟩
  · exact .refl w _ _ (fun b h => by (cases h))
  · refine ⟨id, ⟨[_], rfl, fun ks h => ?_⟩, fun b h => ?_⟩
    · rw [List.mem_singleton] at h; cases h
    · cases res <;> cases h

theorem Lst.after {w : World} {s t s' : Sess} {e : Option SErr} (h : Lst w t s' e) (h1 : t.sinks = s.sinks) (h2 : t.out = s.out) : Lst w s s' e := by
  obtain ⟨a, b, c⟩ := h
  rw [h1] at a
  rw [h2] at b c
  exact ⟨a, b, c⟩

theorem setupLoop_lst {w : World} (fs : List Feed) : ∀ {done : List Feed} {s s' : Sess} {e : Option SErr}, setupLoop w done fs s = .ok (s', e) →
    s'.sinks = s.sinks ∧ (∃ o, s'.out = o ++ s.out ∧ ∀ ks, .started ks ∉ o) ∧ ∀ b, e ≠ some (.listen b) := by
  induction fs with
  | nil => intro done s s' e h; injection h with h; injection h with h h2; subst h h2; exact ⟨rfl, ⟨[], rfl, fun _ h => by (cases h)⟩, fun b h => by (cases h)⟩
  | cons f fs ih =>
    intro done s s' e h
    unfold setupLoop at h
    cases hc : command w s verbSetup (setupURI s.baseURI f.media.control) [(b!"Transport", f.transportHeader)] with
    | error p => rw [hc] at h; cases h
    | ok r =>
      obtain ⟨t, x⟩ := r
      have hp : t.sinks = s.sinks ∧ (∃ o, t.out = o ++ s.out ∧ ∀ ks, .started ks ∉ o) ∧ ∀ b, x ≠ some (.listen b) := by
        rcases command_out hc with ⟨_, rfl, rfl⟩ | ⟨_, _, a, x, res, rfl, rfl⟩
        · exact ⟨rfl, ⟨[], rfl, fun _ h => by (cases h)⟩, fun b h => by (cases h)⟩
        · refine ⟨rfl, ⟨[_], rfl, fun ks h => ?_⟩, fun b h => ?_⟩
          · rw [List.mem_singleton] at h; cases h
          · cases res <;> cases h
      rw [hc] at h
      cases x with
      | some x => injection h with h; injection h with h h2; subst h h2; exact hp
      | none =>
        obtain ⟨i1, ⟨o, i2, i3⟩, i4⟩ := ih h
        obtain ⟨p1, ⟨o', p2, p3⟩, _⟩ := hp
        refine ⟨i1.trans p1, ⟨o ++ o', by rw [i2]; show o ++ t.out = _; rw [p2, List.append_assoc], fun ks hk => ?_⟩, i4⟩
        rcases List.mem_append.1 hk with hk | hk
        · exact i3 ks hk
        · exact p3 ks hk

theorem checkReady_lst (w : World) (s : Sess) : Lst w s (checkReady s) none := by
  unfold checkReady
  split
  · refine ⟨id, ⟨[.started s.sinks, .notified 1], rfl, fun ks h => ?_⟩, fun b h => by (cases h)⟩
    rcases List.mem_cons.1 h with h | h
    · injection h
    · rw [List.mem_singleton] at h; cases h
  · exact .refl w _ _ (fun b h => by (cases h))

theorem handleSetup_lst {w : World} {s s' : Sess} {rsp : Response} {e : Option SErr} (h : handleSetup w s rsp = .ok (s', e)) :
    Lst w s s' e ∧ ∀ b, e = some (.listen b) → rsp.statusCode = 200 := by
  unfold handleSetup at h
  split at h
  · next hc =>
    refine ⟨?_, fun _ _ => hc⟩
    split at h
    · cases h
    · next t x ht =>
      injection h with h; injection h with h h2; subst h h2
      obtain ⟨a, b, c⟩ := setupAnswer_lst _ ht
      exact ⟨a, ⟨[], b, fun _ h => by (cases h)⟩, fun d hd => ⟨b, c d hd⟩⟩
    · next t ht =>
      injection h with h; injection h with h h2; subst h h2
      obtain ⟨a, b, c⟩ := setupAnswer_lst _ ht
      obtain ⟨k1, ⟨o, k2, k3⟩, _⟩ := checkReady_lst w t
      exact ⟨fun h => k1 (a h), ⟨o, by rw [k2, b], k3⟩, fun b h => by (cases h)⟩
  · split at h
    · injection h with h; injection h with h h2; subst h h2
      exact ⟨Lst.after (checkReady_lst w _) rfl rfl, fun b h => by (cases h)⟩
    · injection h with h; injection h with h h2; subst h h2
      exact ⟨checkReady_lst w s, fun b h => by (cases h)⟩

theorem setup_lst {w : World} {fs done : List Feed} {s s' : Sess} {e : Option SErr} (h : setupLoop w done fs s = .ok (s', e)) : Lst w s s' e := by
  obtain ⟨a, ⟨o, b, c⟩, d⟩ := setupLoop_lst _ h
  exact ⟨fun h => by rw [a]; exact h, ⟨o, b, fun ks h => absurd h (c ks)⟩, fun b h => absurd h (d b)⟩

theorem answer_lst {w : World} {s s' : Sess} {verb : Bytes} {rsp : Response} {e : Option SErr} (h : answer w s verb rsp = .ok (s', e)) :
    Lst w s s' e ∧ ∀ b, e = some (.listen b) → rsp.statusCode = 200 ∧ verb = b!"SETUP" := by
  have quiet : ∀ {t : Sess} {x : Option SErr}, Lst w s t x → (∀ b, x ≠ some (.listen b)) → Lst w s t x ∧ ∀ b, x = some (.listen b) → rsp.statusCode = 200 ∧ verb = b!"SETUP" :=
    fun a b => ⟨a, fun c hc => absurd hc (b c)⟩
  have stage : ∀ k, Lst w s (if rsp.statusCode = 200 then notify s k else s) none := fun k => by
    split
    · refine ⟨id, ⟨[.notified k], rfl, fun ks h => ?_⟩, fun b h => by (cases h)⟩
      rw [List.mem_singleton] at h; cases h
    · exact .refl w _ _ (fun b h => by (cases h))
  unfold answer at h
  split at h
  · split at h
    · have hc := deref_ok h
      refine quiet (Lst.after (command_lst hc) rfl rfl) (fun b hb => ?_)
      rcases command_out hc with ⟨_, _, rfl⟩ | ⟨_, _, a, x, res, _, rfl⟩
      · cases hb
      · cases res <;> cases hb
    · injection h with h; injection h with h h2; subst h h2; exact quiet (.refl w _ _ (fun b h => by (cases h))) (fun b h => by (cases h))
  · split at h
    · split at h
      · split at h
        · cases h
        · exact quiet (Lst.after (setup_lst h) rfl rfl) (setupLoop_lst _ h).2.2
      · injection h with h; injection h with h h2; subst h h2; exact quiet (.refl w _ _ (fun b h => by (cases h))) (fun b h => by (cases h))
    · split at h
      · injection h with h; injection h with h h2; subst h h2; exact quiet (stage _) (fun b h => by (cases h))
      · split at h
        · injection h with h; injection h with h h2; subst h h2; exact quiet (stage _) (fun b h => by (cases h))
        · split at h
          · injection h with h; injection h with h h2; subst h h2; exact quiet (stage _) (fun b h => by (cases h))
          · split at h
            · next hv =>
              obtain ⟨a, b⟩ := handleSetup_lst h
              exact ⟨a, fun c hc => ⟨b c hc, hv⟩⟩
            · injection h with h; injection h with h h2; subst h h2; exact quiet (.refl w _ _ (fun b h => by (cases h))) (fun b h => by (cases h))

theorem retry_nolisten {w : World} {s s' : Sess} {req : Request} {c : Bytes} {e : Option SErr} (h : retry w s req c = .ok (s', e)) : ∀ b, e ≠ some (.listen b) := by
  intro b hb
  unfold retry at h
  split at h
  · cases h
  · next t x ht =>
    injection h with h; injection h with h h2
    rw [← h2] at hb
    rw [hb] at ht
    unfold authorize at ht
    split at ht
    · injection ht with ht; injection ht with ht ht2; cases ht2
    · split at ht
      · injection ht with ht; injection ht with ht ht2; cases ht2
      · split at ht
        · cases ht
        · injection ht with ht; injection ht with ht ht2; cases ht2
  · split at h
    · cases h
    · dsimp only at h
      unfold writeReq at h
      split at h
      · cases h
      · dsimp only at h
        split at h <;> (injection h with h; injection h with h h2; rw [← h2] at hb; cases hb)

theorem step_lst {w : World} {s s' : Sess} {op : Op} {e : Option SErr} (h : step w s op = .ok (s', e)) :
    (AllListening w s.sinks → AllListening w s'.sinks) ∧ (∃ o, s'.out = o ++ s.out ∧ ∀ ks, .started ks ∈ o → ks = s'.sinks) ∧
    ∀ b, e = some (.listen b) → ∃ rsp req, op = .item (.response rsp) ∧ s.find rsp.cseq = some req ∧ req.verb = b!"SETUP" ∧ rsp.statusCode = 200 ∧ s'.out = .got rsp :: s.out ∧
      ∃ port, w.listen s'.out s'.sinks port = if b then .timeout else .failed := by
  have cmd : ∀ {t : Sess} {verb uri : Bytes} {hs : Header}, (AllListening w s.sinks → AllListening w t.sinks) → t.out = s.out → command w t verb uri hs = .ok (s', e) →
      (AllListening w s.sinks → AllListening w s'.sinks) ∧ (∃ o, s'.out = o ++ s.out ∧ ∀ ks, .started ks ∈ o → ks = s'.sinks) ∧
      ∀ b, e = some (.listen b) → ∃ rsp req, op = .item (.response rsp) ∧ s.find rsp.cseq = some req ∧ req.verb = b!"SETUP" ∧ rsp.statusCode = 200 ∧ s'.out = .got rsp :: s.out ∧
        ∃ port, w.listen s'.out s'.sinks port = if b then .timeout else .failed := by
    intro t verb uri hs h1 h2 hc
    obtain ⟨a, b, _⟩ := command_lst hc
    refine ⟨fun h => a (h1 h), by rw [← h2]; exact b, fun c hb => ?_⟩
    rcases command_out hc with ⟨_, _, rfl⟩ | ⟨_, _, a, x, res, _, rfl⟩
    · cases hb
    · cases res <;> cases hb
  have empty : AllListening w [] := fun pre x post e => by have := congrArg List.length e; simp at this
  have same : ∀ {o : List Out} {x : Option SErr}, (∀ ks, Out.started ks ∉ o) → (∀ b, x ≠ some (.listen b)) → s'.sinks = s.sinks → s'.out = o ++ s.out → e = x → 
      (AllListening w s.sinks → AllListening w s'.sinks) ∧ (∃ o, s'.out = o ++ s.out ∧ ∀ ks, .started ks ∈ o → ks = s'.sinks) ∧
      ∀ b, e = some (.listen b) → ∃ rsp req, op = .item (.response rsp) ∧ s.find rsp.cseq = some req ∧ req.verb = b!"SETUP" ∧ rsp.statusCode = 200 ∧ s'.out = .got rsp :: s.out ∧
        ∃ port, w.listen s'.out s'.sinks port = if b then .timeout else .failed := by
    intro o x h1 h2 h3 h4 h5
    subst h5
    exact ⟨fun h => by rw [h3]; exact h, ⟨o, h4, fun ks h => absurd h (h1 ks)⟩, fun b hb => absurd hb (h2 b)⟩
  cases op with
  | dial uri proto user =>
    injection h with h; injection h with h h2; subst h h2
    exact ⟨fun _ => empty, ⟨[], rfl, fun _ h => by (cases h)⟩, fun b h => by (cases h)⟩
  | open_ uri proto user =>
    have h : Sess.options w { s with opened := true, baseURI := uri, proto := proto, user := user, sinks := [] } = .ok (s', e) := h
    exact cmd (t := { s with opened := true, baseURI := uri, proto := proto, user := user, sinks := [] }) (fun _ => empty) rfl (deref_ok h)
  | options => exact cmd id rfl (deref_ok h)
  | describe => exact cmd id rfl (deref_ok h)
  | setup =>
    obtain ⟨a, ⟨o, b, c⟩, d⟩ := setupLoop_lst _ h
    exact same c d a b rfl
  | play => exact cmd id rfl (deref_ok h)
  | pause => exact cmd id rfl (deref_ok h)
  | teardown => exact cmd id rfl (deref_ok h)
  | keepAlive due =>
    have h := deref_ok h
    split at h
    · exact cmd id rfl h
    · injection h with h; injection h with h h2; subst h h2
      exact same (o := []) (fun _ h => by (cases h)) (fun b h => by (cases h)) rfl rfl rfl
  | item i =>
    cases i with
    | frame ch p =>
      injection h with h; injection h with h h2; subst h h2
      exact same (o := [.data ch p]) (fun ks h => by rw [List.mem_singleton] at h; cases h) (fun b h => by (cases h)) rfl rfl rfl
    | response rsp =>
      have h : handleRtsp w { s with out := .got rsp :: s.out } rsp = .ok (s', e) := h
      unfold handleRtsp at h
      cases hf : s.find rsp.cseq with
      | none =>
        rw [show ({ s with out := .got rsp :: s.out } : Sess).find rsp.cseq = none from hf] at h
        injection h with h; injection h with h h2; subst h h2
        exact same (o := [.got rsp]) (fun ks h => by rw [List.mem_singleton] at h; cases h) (fun b h => by (cases h)) rfl rfl rfl
      | some req =>
        rw [show ({ s with out := .got rsp :: s.out } : Sess).find rsp.cseq = some req from hf] at h
        dsimp only at h
        split at h
        · rcases retry_out h with ⟨x, rfl, he⟩ | ⟨a, x, res, rfl, rfl⟩
          · refine same (o := [.got rsp]) (fun ks h => by rw [List.mem_singleton] at h; cases h) (fun b hb => ?_) rfl rfl rfl
            exact retry_nolisten h b hb
          · refine same (o := [_, .got rsp]) (fun ks h => ?_) (fun b hb => ?_) rfl rfl rfl
            · rcases List.mem_cons.1 h with h | h
              · cases h
              · rw [List.mem_singleton] at h; cases h
            · cases res <;> cases hb
        · rw [learnSession_eq] at h
          obtain ⟨⟨a, ⟨o, b, c⟩, d⟩, g⟩ := answer_lst h
          refine ⟨a, ⟨o ++ [.got rsp], by rw [b, List.append_assoc]; rfl, fun ks hk => ?_⟩, fun x hx => ?_⟩
          · rcases List.mem_append.1 hk with hk | hk
            · exact c ks hk
            · rw [List.mem_singleton] at hk; cases hk
          · obtain ⟨d1, d2⟩ := d x hx
            exact ⟨rsp, req, rfl, hf, (g x hx).2, (g x hx).1, d1, d2⟩

/-- C125: reading is started only with listeners that could be opened, each with those before it open. -/
theorem C125_started (w : World) (s : Sess) (h : Reachable w s) (ks : List (UInt8 × Int)) (hk : Out.started ks ∈ s.out) : AllListening w ks := by
  obtain ⟨ops, h⟩ := h
  have key : ∀ (ops : List Op) (s s' : Sess), run w s ops = .ok s' → AllListening w s.sinks → (∀ ks, Out.started ks ∈ s.out → AllListening w ks) →
      ∀ ks, Out.started ks ∈ s'.out → AllListening w ks := by
    intro ops
    induction ops with
    | nil => intro s s' h _ h2; injection h with h; subst h; exact h2
    | cons op ops ih =>
      intro s s' h h1 h2
      unfold run at h
      cases hs : step w s op with
      | error p => rw [hs] at h; cases h
      | ok r =>
        obtain ⟨t, e⟩ := r
        rw [hs] at h
        obtain ⟨a, ⟨o, b, c⟩, _⟩ := step_lst hs
        refine ih t s' h (a h1) (fun ks hk => ?_)
        rw [b] at hk
        rcases List.mem_append.1 hk with hk | hk
        · rw [c ks hk]; exact a h1
        · exact h2 ks hk
  exact key ops newSession s h (fun pre x post e => by have := congrArg List.length e; simp [newSession] at this) (fun ks hk => by (cases hk)) ks hk

/-- C125, the error: listening is said to have failed only when a SETUP was granted and a port could not be listened on, and it is said to be temporary exactly
when it was. Nothing is reported. -/
theorem C125_error (w : World) (s s' : Sess) (h : Reachable w s) (op : Op) (b : Bool) (hs : step w s op = .ok (s', some (.listen b))) :
    ∃ rsp req, op = .item (.response rsp) ∧ pending rsp.cseq s.out = some req ∧ req.verb = b!"SETUP" ∧ rsp.statusCode = 200 ∧ s'.out = .got rsp :: s.out ∧
      ∃ port, w.listen s'.out s'.sinks port = if b then .timeout else .failed := by
  obtain ⟨rsp, req, h1, h2, h3⟩ := (step_lst hs).2.2 b rfl
  exact ⟨rsp, req, h1, by rw [← (inv_reachable h).find]; exact h2, h3⟩

/-! ## A grant that cannot be used -/

/-- What a grant for the `j`-th stream, the next one in turn, leads to. -/
theorem granted_next {w : World} {proto : Proto} (hproto : proto = .unicast ∨ proto = .multicast) {c j : Nat} {g : Grant} {rsp : Response} (hg : Grants g (((c + j : Nat) : Int) + 1) rsp) (hwf : g.WF)
    {m : Media} {ms : List Media} (hbig : j < 2 ^ 60) (hsp : ∃ x, spropLoop w.inf newParameterSets m.spropParameterSets = .ok (x, none)) {done : List Feed} {s : Sess}
    (hfeeds : s.feeds = done ++ numberFrom (c + j) (feedsFrom proto j (m :: ms))) (hdone : ∀ f ∈ done, f.cseq ≤ (c + j : Int))
    (hfind : ∃ q, s.find (((c + j : Nat) : Int) + 1) = some q ∧ q.verb = b!"SETUP") :
    ∃ f f', s.feeds = done ++ f :: numberFrom (c + j + 1) (feedsFrom proto (j + 1) ms) ∧ (∀ h ∈ done, h.cseq ≠ rsp.cseq) ∧
      (∀ h ∈ numberFrom (c + j + 1) (feedsFrom proto (j + 1) ms), h.cseq ≠ rsp.cseq) ∧ f.cseq = rsp.cseq ∧ f'.cseq = f.cseq ∧
      f.transportSetup w.inf (rsp.header.get b!"Transport") = .ok (f', none) ∧ f'.transp.isTCP = false ∧ f'.transp.port = portsOf proto j g ∧
      step w s (.item (.response rsp)) =
        match setupAnswer w rsp [] s.feeds { s with queue := s.queue.filter (fun e => e.1 ≠ rsp.cseq), session := learned s.session (rsp.header.get b!"Session"), out := .got rsp :: s.out } with
        | .error p => .error p
        | .ok (s, some e) => .ok (s, some e)
        | .ok (s, none) => .ok (checkReady s, none) := by
  obtain ⟨hc, h200, hhdr⟩ := hg
  obtain ⟨hlow, hitems⟩ := hwf
  obtain ⟨x, hx⟩ := hsp
  obtain ⟨q, hq, hqv⟩ := hfind
  rw [← hc] at hq
  obtain ⟨hn1, hn2⟩ := new_port proto hproto j hbig
  let f : Feed := { media := m, transp := newTransport proto (i64 ((j : Int) * 2)), cseq := ((c + j + 1 : Nat) : Int), sets := newParameterSets }
  let tr : Transport := g.items.foldl (fun t i => i.param.apply t) (g.low.apply f.transp)
  have htr : f.transp.parse (rsp.header.get b!"Transport") = (tr, none) := by rw [hhdr]; exact C69_server_header_partial _ _ _ hitems
  have hlowt : (g.low.apply f.transp).isTCP = false ∧ (g.low.apply f.transp).port = f.transp.port := by
    cases hh : g.low with
    | tcp => exact absurd hh hlow
    | udp => exact ⟨rfl, rfl⟩
    | unspecified => exact ⟨hn1, rfl⟩
  obtain ⟨hp1, hp2⟩ := items_port g.items (g.low.apply f.transp)
  refine ⟨f, { f with transp := tr, sets := x, isSet := true }, by rw [hfeeds]; rfl, fun h hh e => ?_, fun h hh e => ?_, ?_, rfl, ?_, hp1.trans hlowt.1, ?_, ?_⟩
  · have := hdone h hh; rw [e, hc] at this; omega
  · obtain ⟨i, f0, _, rfl⟩ := numberFrom_mem _ _ h hh
    rw [hc] at e
    dsimp only at e
    omega
  · rw [hc]; show ((c + j + 1 : Nat) : Int) = _; omega
  · unfold Feed.transportSetup
    rw [htr]
    dsimp only
    rw [hx]
    rfl
  · show tr.port = _
    rw [hp2, hlowt.2, hn2]
    rfl
  · show handleRtsp w { s with out := .got rsp :: s.out } rsp = _
    unfold handleRtsp
    rw [show ({ s with out := .got rsp :: s.out } : Sess).find rsp.cseq = some q from hq]
    dsimp only
    rw [if_neg (by rw [h200]; decide), learnSession_eq]
    unfold answer
    rw [hqv, if_neg (by decide), if_neg (by decide), if_neg (by decide), if_neg (by decide), if_neg (by decide), if_pos (by decide)]
    unfold handleSetup
    rw [if_pos h200]
    dsimp only [Sess.remove]
    cases setupAnswer w rsp [] s.feeds { s with queue := s.queue.filter (fun e => e.1 ≠ rsp.cseq), session := learned s.session (rsp.header.get b!"Session"), out := .got rsp :: s.out } with
    | error p => rfl
    | ok r =>
      obtain ⟨t, e⟩ := r
      cases e <;> rfl

/-- The state while the streams from `j` on still wait. -/
structure Waits (proto : Proto) (c j : Nat) (ms : List Media) (s : Sess) : Prop where
  feeds : ∃ done, s.feeds = done ++ numberFrom (c + j) (feedsFrom proto j ms) ∧ done.length = j ∧ ∀ f ∈ done, f.cseq ≤ (c + j : Int)
  idx : s.feedidx = j
  find : ∀ i, i < ms.length → ∃ q, s.find (((c + j : Nat) : Int) + 1 + i) = some q ∧ q.verb = b!"SETUP"

theorem numbered_length (proto : Proto) : ∀ (ms : List Media) (k n : Nat), (numberFrom k (feedsFrom proto n ms)).length = ms.length := by
  intro ms
  induction ms with
  | nil => intro k n; rfl
  | cons m ms ih => intro k n; show (numberFrom (k + 1) (feedsFrom proto (n + 1) ms)).length + 1 = _; rw [ih]; rfl

/-- Some streams are granted, not all. -/
theorem grants_some {w : World} {proto : Proto} (hproto : proto = .unicast ∨ proto = .multicast) (c : Nat) (gs : List Grant) :
    ∀ (j : Nat) (ops : List Op) (ms : List Media) (s : Sess), CanListen w s.sinks (listenersOf proto j gs) → GrantAll (c + j) gs ops → (∀ g ∈ gs, g.WF) → gs.length < ms.length →
    j + ms.length < 2 ^ 60 → (∀ m ∈ ms, ∃ x, spropLoop w.inf newParameterSets m.spropParameterSets = .ok (x, none)) → Waits proto c j ms s →
    ∃ s', Runs w s ops s' ∧ Waits proto c (j + gs.length) (ms.drop gs.length) s' ∧ s'.sinks = s.sinks ++ listenersOf proto j gs ∧ s'.stage = s.stage ∧ readies s'.out = readies s.out := by
  induction gs with
  | nil => intro j ops ms s _ hall _ _ _ _ hW; cases hall; exact ⟨s, .nil s, hW, by simp [listenersOf], rfl, rfl⟩
  | cons g gs ih =>
    intro j ops ms s hl hall hwf hlen hbig hsp hW
    cases hall with
    | @cons _ _ _ ops rsp hg hrest =>
    cases ms with
    | nil => exact absurd hlen (Nat.not_lt_zero _)
    | cons m ms =>
    simp only [List.length_cons] at hlen hbig
    obtain ⟨⟨done, hfeeds, hdl, hdone⟩, hidx, hfind⟩ := hW
    obtain ⟨f, f', k1, k2, k3, k4, k5, k6, k7, k8, k9⟩ := granted_next hproto hg (hwf g (by simp)) (by omega) (hsp m (by simp)) hfeeds hdone
      (by have := hfind 0 (by simp); simpa using this)
    have hans := setupAnswer_one (w := w) (rsp := rsp) done _ f f' { s with queue := s.queue.filter (fun e => e.1 ≠ rsp.cseq), session := learned s.session (rsp.header.get b!"Session"), out := .got rsp :: s.out }
      (by rw [k8]; have := hl [] _ _ rfl (.got rsp :: s.out); rw [List.append_nil] at this; exact this)
      (by rw [k8, show ({ s with queue := s.queue.filter (fun e => e.1 ≠ rsp.cseq), session := learned s.session (rsp.header.get b!"Session"), out := .got rsp :: s.out } : Sess).feedidx = j from hidx]; exact hl [_] _ _ rfl _) k2 k3 k4 k6 k7
    rw [← k1] at hans
    rw [hans] at k9
    dsimp only at k9
    rw [hidx, k8] at k9
    generalize ht : ({ s with queue := s.queue.filter (fun e => e.1 ≠ rsp.cseq), session := learned s.session (rsp.header.get b!"Session"), out := .got rsp :: s.out, feedidx := j + 1, feeds := done ++ f' :: numberFrom (c + j + 1) (feedsFrom proto (j + 1) ms), sinks := s.sinks ++ [(UInt8.ofNat (j + 1) * 2, (portsOf proto j g).one), (UInt8.ofNat (j + 1) * 2 + 1, (portsOf proto j g).two)] } : Sess) = t at *
    have hcr : checkReady t = t := by
      unfold checkReady
      rw [if_neg]
      rw [← ht]
      simp only [List.length_append, List.length_cons, numbered_length, hdl]
      omega
    rw [hcr] at k9
    obtain ⟨s', h1, h2, h3, h4, h5⟩ := ih (j + 1) ops ms t (fun pre x post e o => by
        have := hl (_ :: _ :: pre) x post (by rw [listenersOf, e]; rfl) o
        rw [← ht]
        dsimp only
        rw [List.append_assoc]
        exact this) (by rw [← Nat.add_assoc]; exact hrest)
      (fun g hg => hwf g (by simp [hg])) (by omega) (by omega) (fun m hm => hsp m (by simp [hm]))
      ⟨⟨done ++ [f'], by rw [← ht]; simp only [List.append_assoc, List.cons_append, List.nil_append]; rfl, by simp [hdl], by
          intro h hh
          rcases List.mem_append.1 hh with hh | hh
          · have := hdone h hh; omega
          · rw [List.mem_singleton] at hh
            subst hh
            rw [k5, k4, hg.1]
            omega⟩, by rw [← ht], by
          intro i hi
          obtain ⟨q', hq', hv'⟩ := hfind (i + 1) (by simp only [List.length_cons]; omega)
          refine ⟨q', ?_, hv'⟩
          have e : ((c + (j + 1) : Nat) : Int) + 1 + i = ((c + j : Nat) : Int) + 1 + ((i + 1 : Nat) : Int) := by omega
          rw [e, ← hq', ← ht]
          refine (find_remove s rsp.cseq _).trans (if_neg ?_)
          rw [hg.1]; omega⟩
    refine ⟨s', .cons k9 h1, ?_, ?_, ?_, ?_⟩
    · rw [show j + (g :: gs).length = j + 1 + gs.length by simp only [List.length_cons]; omega]
      exact h2
    · rw [h3, ← ht]
      simp [listenersOf, portsOf]
    · rw [h4, ← ht]
    · rw [h5, ← ht]; rfl

/-- C125, exactly: a session over UDP, OPTIONS and DESCRIBE answered, some SETUP requests granted in turn with ports that could be listened on, and now a grant with
a port that cannot. Nothing is reported then (only the answer was received), and what was opened stays open. The call that reads from the connection gives an error, that is temporary
if listening failed for a temporary reason: so the goroutine that reads goes on exactly then. -/
theorem C125_exact (w : World) (hw : ∀ o b, w.write o b = .ok) (uri : Bytes) (user : Option (Bytes × Bytes))
    (proto : Proto) (hproto : proto = .unicast ∨ proto = .multicast) (rsp1 rsp2 : Response) (h1 : rsp1.cseq = 1 ∧ rsp1.statusCode ≠ 401)
    (body : Bytes) (h2 : rsp2.cseq = 2 ∧ rsp2.statusCode ≠ 401 ∧ rsp2.body = some body) (ms : List Media) (hms : sdpParse body = .ok ms)
    (hsp : ∀ m ∈ ms, ∃ x, spropLoop w.inf newParameterSets m.spropParameterSets = .ok (x, none))
    (gs : List Grant) (hgs : gs.length < ms.length) (hbig : ms.length < 2 ^ 60) (hwf : ∀ g ∈ gs, g.WF) (ops : List Op) (hall : GrantAll 2 gs ops)
    (hl : CanListen w [] (listenersOf proto 0 gs))
    (g : Grant) (hg : g.WF) (rsp : Response) (hr : Grants g (3 + gs.length) rsp) (r : IORes) (more : List (UInt8 × Int))
    (hf : ListeningFails w (listenersOf proto 0 gs) proto gs.length g r more) :
    ∃ s s', Runs w newSession ([.open_ uri proto user, .item (.response rsp1), .item (.response rsp2)] ++ ops) s ∧
      step w s (.item (.response rsp)) = .ok (s', some (.listen (decide (r = .timeout)))) ∧ s'.out = .got rsp :: s.out ∧ readies s'.out = 0 ∧
      s'.sinks = listenersOf proto 0 gs ++ more ∧
      ∀ (p : Clocked) (rdr : Rdr) (now now' t : Nat), p.sess = s → p.running = true → recv p.rdr = (.ok (.response rsp), rdr) →
        ∃ p', procTurn w p now now' t = .ok p' ∧ p'.log = (t, .got rsp) :: p.log ∧ p'.running = decide (r = .timeout) := by
  obtain ⟨v, k1, k2, k3, k4, k5, k6, k7⟩ := described_ok w hw uri user proto hproto rsp1 rsp2 h1 body h2 ms hms
  obtain ⟨s, r1, r2, r3, r4, r5⟩ := grants_some hproto 2 gs 0 ops ms v (by rw [k5]; exact hl) hall hwf hgs (by omega) hsp ⟨⟨[], by rw [k2]; rfl, rfl, fun f hf => by (cases hf)⟩, k3, k4⟩
  rw [k5, List.nil_append] at r3
  rw [Nat.zero_add] at r2
  obtain ⟨m, hm⟩ : ∃ m, ms.drop gs.length = m :: ms.drop (gs.length + 1) := ⟨ms[gs.length], List.drop_eq_getElem_cons hgs⟩
  rw [hm] at r2
  obtain ⟨⟨done, hfeeds, hdl, hdone⟩, hidx, hfind⟩ := r2
  obtain ⟨f, f', j1, j2, j3, j4, j5, j6, j7, j8, j9⟩ := granted_next (w := w) hproto (c := 2) (j := gs.length) (g := g) (rsp := rsp)
    (by rw [show ((2 + gs.length : Nat) : Int) + 1 = 3 + (gs.length : Int) by omega]; exact hr) hg (by omega)
    (hsp m (List.mem_of_mem_drop (by rw [hm]; exact List.mem_cons_self))) hfeeds hdone (by have := hfind 0 (by simp); simpa using this)
  have hans : ∃ s', setupAnswer w rsp [] s.feeds { s with queue := s.queue.filter (fun e => e.1 ≠ rsp.cseq), session := learned s.session (rsp.header.get b!"Session"), out := .got rsp :: s.out } =
      .ok (s', some (.listen (decide (r = .timeout)))) ∧ s'.out = .got rsp :: s.out ∧ s'.sinks = listenersOf proto 0 gs ++ more := by
    rw [j1, setupAnswer_skip done [] _ _ j2, List.nil_append, setupAnswer, if_pos j4, j6]
    dsimp only
    rw [j7, if_neg (by decide), j8]
    obtain ⟨hne, ⟨rfl, hone⟩ | ⟨rfl, hone, htwo⟩⟩ := hf
    · unfold addSink
      rw [show w.listen (.got rsp :: s.out) s.sinks _ = r by rw [r3]; exact hone _]
      cases r with
      | ok => exact absurd rfl hne
      | timeout => exact ⟨_, rfl, rfl, by rw [List.append_nil]; exact r3⟩
      | failed => exact ⟨_, rfl, rfl, by rw [List.append_nil]; exact r3⟩
    · unfold addSink
      rw [show w.listen (.got rsp :: s.out) s.sinks _ = IORes.ok by rw [r3]; exact hone _]
      dsimp only
      rw [hidx, r3, show w.listen (.got rsp :: s.out) (listenersOf proto 0 gs ++ [(UInt8.ofNat (gs.length + 1) * 2, (portsOf proto gs.length g).one)]) _ = r from htwo _]
      cases r with
      | ok => exact absurd rfl hne
      | timeout => exact ⟨_, rfl, rfl, rfl⟩
      | failed => exact ⟨_, rfl, rfl, rfl⟩
  obtain ⟨s', a1, a2, a3⟩ := hans
  rw [a1] at j9
  refine ⟨s, s', runs_append k1 r1, j9, a2, by rw [a2]; show readies s.out = 0; rw [r5, k7], a3, ?_⟩
  intro p rdr now now' t hp hrun hrecv
  have hst : p.sess.inUse = false := by
    unfold Sess.inUse
    rw [hp, r4, k6]
    exact decide_eq_false (fun h => absurd h.2.2.1 (by decide))
  refine ⟨({ p with rdr := rdr, running := goesOn (some (.listen (decide (r = .timeout)))) } : Clocked).adopt t s', ?_, ?_, ?_⟩
  · unfold procTurn
    rw [if_pos hrun]
    unfold procKeepAlive
    rw [hst, Bool.false_and, if_neg (by decide)]
    dsimp only [pure, Except.pure]
    rw [if_neg (fun h => h.1 rfl)]
    unfold procReceive
    rw [hrecv]
    dsimp only
    rw [hp, show handleItem w s (.response rsp) = .ok (s', some (.listen (decide (r = .timeout)))) from j9]
    rfl
  · show (added p.sess s').map (fun o => (t, o)) ++ p.log = _
    rw [hp]
    unfold added
    rw [a2]
    simp
  · rfl

/-- C125, a failure that is not temporary: reading has ended then (`C125_exact`), and once it has, nothing is ever reported again, whatever the user calls: requests
are sent, no stage is reported and nothing that the server sends is received. The user is not told. -/
theorem C125_silent_refuted (w : World) (p p' : Clocked) (hr : p.running = false) (es : List PEv) (h : psteps w p es = .ok p') :
    p'.running = false ∧ ∃ new, p'.log = new ++ p.log ∧ ∀ x ∈ new, ∃ q res, x.2 = .sent false q res := by
  induction es generalizing p with
  | nil => injection h with h; subst h; exact ⟨hr, [], rfl, fun x h => by (cases h)⟩
  | cons e es ih =>
    unfold psteps at h
    cases hs : pstep w p e with
    | error x => rw [hs] at h; cases h
    | ok q =>
      rw [hs] at h
      have one : q.running = false ∧ ∃ new, q.log = new ++ p.log ∧ ∀ x ∈ new, ∃ q res, x.2 = .sent false q res := by
        cases e with
        | turn now now' t =>
          unfold pstep procTurn at hs
          dsimp only at hs
          rw [hr, if_neg (by decide)] at hs
          injection hs with hs; subst hs
          exact ⟨hr, [], rfl, fun x h => by (cases h)⟩
        | call c t =>
          unfold pstep at hs
          dsimp only at hs
          split at hs
          · cases hs
          · next s e he =>
            injection hs with hs; subst hs
            refine ⟨hr, (added p.sess s).map (fun o => (t, o)), rfl, fun x hx => ?_⟩
            have : ∃ o, s.out = o ++ p.sess.out ∧ ∀ x ∈ o, ∃ q res, x = .sent false q res := by
              have cmd : ∀ {verb uri : Bytes} {hs : Header}, command w p.sess verb uri hs = .ok (s, e) → ∃ o, s.out = o ++ p.sess.out ∧ ∀ x ∈ o, ∃ q res, x = .sent false q res := by
                intro verb uri hs hc
                rcases command_out hc with ⟨_, rfl, _⟩ | ⟨_, _, a, x, res, rfl, _⟩
                · exact ⟨[], rfl, fun x h => by (cases h)⟩
                · exact ⟨[_], rfl, fun x h => by rw [List.mem_singleton] at h; exact ⟨_, _, h⟩⟩
              have loop : ∀ (fs done : List Feed) (s s' : Sess) (e : Option SErr), setupLoop w done fs s = .ok (s', e) → ∃ o, s'.out = o ++ s.out ∧ ∀ x ∈ o, ∃ q res, x = .sent false q res := by
                intro fs
                induction fs with
                | nil => intro done s s' e h; injection h with h; injection h with h _; subst h; exact ⟨[], rfl, fun x h => by (cases h)⟩
                | cons f fs ih =>
                  intro done s s' e h
                  unfold setupLoop at h
                  cases hc : command w s verbSetup (setupURI s.baseURI f.media.control) [(b!"Transport", f.transportHeader)] with
                  | error p => rw [hc] at h; cases h
                  | ok r =>
                    obtain ⟨t, y⟩ := r
                    have h1 : ∃ o, t.out = o ++ s.out ∧ ∀ x ∈ o, ∃ q res, x = .sent false q res := by
                      rcases command_out hc with ⟨_, rfl, _⟩ | ⟨_, _, a, x, res, rfl, _⟩
                      · exact ⟨[], rfl, fun x h => by (cases h)⟩
                      · exact ⟨[_], rfl, fun x h => by rw [List.mem_singleton] at h; exact ⟨_, _, h⟩⟩
                    rw [hc] at h
                    cases y with
                    | some y => injection h with h; injection h with h _; subst h; exact h1
                    | none =>
                      obtain ⟨o, a, b⟩ := ih _ _ _ _ h
                      obtain ⟨o', a', b'⟩ := h1
                      refine ⟨o ++ o', by rw [a]; show o ++ t.out = _; rw [a', List.append_assoc], fun x hx => ?_⟩
                      rcases List.mem_append.1 hx with hx | hx
                      · exact b x hx
                      · exact b' x hx
              cases c with
              | options => exact cmd (deref_ok he)
              | describe => exact cmd (deref_ok he)
              | setup => exact loop _ _ _ _ _ he
              | play => exact cmd (deref_ok he)
              | pause => exact cmd (deref_ok he)
              | teardown => exact cmd (deref_ok he)
            obtain ⟨o, ho, hall⟩ := this
            obtain ⟨y, hy, rfl⟩ := List.mem_map.1 hx
            have : added p.sess s = o := by
              unfold added
              rw [ho]
              simp
            rw [this] at hy
            exact hall y hy
      obtain ⟨k1, new1, k2, k3⟩ := one
      obtain ⟨j1, new2, j2, j3⟩ := ih q k1 h
      refine ⟨j1, new2 ++ new1, by rw [j2, k2, List.append_assoc], fun x hx => ?_⟩
      rcases List.mem_append.1 hx with hx | hx
      · exact j3 x hx
      · exact k3 x hx

/-- A server that grants what the client asked for, over multicast, and a machine on which one port cannot be listened on (for the moment, as when no file descriptor is left, or for good). -/
def demoBusy (p : Int) (r : IORes) : World := { demoWorld with listen := fun _ _ q => if q = p then r else .ok }

def demoMulticast : List Op := [demoGot 3 200 [(b!"Transport", b!"RTP/AVP;multicast;port=50000-50001")] none, demoGot 4 200 [(b!"Transport", b!"RTP/AVP;multicast;port=50002-50003")] none]

/-- The listeners reading was started with, if it was, and the stages reported. -/
def demoStarted (s : Sess) : List (List (UInt8 × Int)) × List Nat := (s.out.filterMap fun | .started ks => some ks | _ => none, s.out.filterMap fun | .notified k => some k | _ => none)

/-- C125 fails: the first of the two streams could not be listened for, for the moment; the session is reported to be ready nevertheless, and reading is
started without listeners for that stream, or with one of the two. -/
theorem C125_ready_refuted :
    (∃ s, run (demoBusy 50000 .timeout) newSession ([.open_ b!"rtsp://h/x" .multicast none, demoGot 1 200 [] none, demoGot 2 200 [] (some demoSdp)] ++ demoMulticast) = .ok s ∧
      demoStarted s = ([[(4, 50002), (5, 50003)]], [1])) ∧
    (∃ s, run (demoBusy 50001 .timeout) newSession ([.open_ b!"rtsp://h/x" .multicast none, demoGot 1 200 [] none, demoGot 2 200 [] (some demoSdp)] ++ demoMulticast) = .ok s ∧
      demoStarted s = ([[(2, 50000), (4, 50002), (5, 50003)]], [1])) := ⟨⟨_, rfl, rfl⟩, ⟨_, rfl, rfl⟩⟩

def demoPort1 : Grant := ⟨.unspecified, [⟨b!"multicast", .multicast⟩, ⟨b!"port", .port ⟨50002, some 50003⟩⟩]⟩

def demoPort0 : Grant := ⟨.unspecified, [⟨b!"multicast", .multicast⟩, ⟨b!"port", .port ⟨50000, some 50001⟩⟩]⟩

/-- The hypotheses of `C125_exact` are met: the first stream is listened for, and the second cannot be, on its second port. -/
example : GrantAll 2 [demoPort0] (demoMulticast.take 1) ∧ demoPort0.WF ∧ demoPort1.WF ∧ (∃ rsp, demoMulticast[1]? = some (.item (.response rsp)) ∧ Grants demoPort1 (3 + ((1 : Nat) : Int)) rsp) ∧
    CanListen (demoBusy 50003 .failed) [] (listenersOf .multicast 0 [demoPort0]) ∧
    ListeningFails (demoBusy 50003 .failed) (listenersOf .multicast 0 [demoPort0]) .multicast 1 demoPort1 .failed [(4, 50002)] := by
  refine ⟨.cons _ ⟨rfl, rfl, by decide⟩ (.nil _), ⟨fun h => by (cases h), ?_⟩, ⟨fun h => by (cases h), ?_⟩, ⟨_, rfl, rfl, rfl, by decide⟩, ?_, by decide, .inr ⟨by decide, fun _ => rfl, fun _ => rfl⟩⟩
  · intro i hi
    simp only [demoPort0, List.mem_cons, List.not_mem_nil, or_false] at hi
    rcases hi with rfl | rfl <;> refine ⟨by decide, ?_⟩ <;> simp [TParam.WF, Range.WF, IntFits]
  · intro i hi
    simp only [demoPort1, List.mem_cons, List.not_mem_nil, or_false] at hi
    rcases hi with rfl | rfl <;> refine ⟨by decide, ?_⟩ <;> simp [TParam.WF, Range.WF, IntFits]
  · have hl : listenersOf .multicast 0 [demoPort0] = [(2, 50000), (3, 50001)] := by decide
    intro pre x post e o
    have hx : x ∈ listenersOf .multicast 0 [demoPort0] := by rw [e]; simp
    rw [hl] at hx
    simp only [List.mem_cons, List.not_mem_nil, or_false] at hx
    rcases hx with rfl | rfl <;> rfl

/-- Reading is started, so `C125_started` says something; and the error of `C125_error` occurs. -/
example : ∃ s t, Reachable (demoBusy 50001 .timeout) s ∧ Out.started [(2, 50000), (4, 50002), (5, 50003)] ∈ s.out ∧ Reachable (demoBusy 50001 .timeout) t ∧
    ∃ t', step (demoBusy 50001 .timeout) t (demoGot 3 200 [(b!"Transport", b!"RTP/AVP;multicast;port=50000-50001")] none) = .ok (t', some (.listen true)) :=
  ⟨_, _, ⟨[.open_ b!"rtsp://h/x" .multicast none, demoGot 1 200 [] none, demoGot 2 200 [] (some demoSdp)] ++ demoMulticast, rfl⟩, List.mem_cons_self,
    ⟨[.open_ b!"rtsp://h/x" .multicast none, demoGot 1 200 [] none, demoGot 2 200 [] (some demoSdp)], rfl⟩, _, rfl⟩

end Ouro
