import Verif.Spec.Deadlock
import Verif.Props.EndToEnd
/-! # C101: a lost connection and the client -/
namespace Ouro
open Spec

theorem cstep_expire {w : World} {c : Client} (h : c.ended = false) : cstep w c .expire = pure (if c.armed then { c with armed := false, fired := true } else c) := by
  unfold cstep
  rw [if_neg (by rw [h]; decide)]

theorem order_trace {c c' : Client} {r : Go (Sess × Option SErr)} (h : c.order r = .ok c') : c.trace.length ≤ c'.trace.length := by
  unfold Client.order at h
  split at h
  · cases h
  · injection h with h; subst h; simp [Client.adopt]
  · injection h with h; subst h; simp [Client.adopt, Client.finish]; omega

theorem packet_grows {c c' : Client} (hd : c.data ≠ []) (h : clientPacket c = .ok c') : c.trace.length < c'.trace.length := by
  unfold clientPacket at h
  split at h
  · next e => exact absurd e hd
  · dsimp only at h
    split at h
    · split at h
      · cases h
      · injection h with h; subst h; simp [Client.finish]; omega
      · split at h
        · cases h
        · injection h with h; subst h; simp [Client.finish]; omega
        · injection h with h; subst h; simp; omega
    · split at h
      · cases h
      · injection h with h; subst h; simp [Client.finish]; omega
      · injection h with h; subst h; simp

theorem stage_grows {w : World} {c c' : Client} (hd : c.states ≠ []) (h : clientStage w c = .ok c') : c.trace.length < c'.trace.length := by
  unfold clientStage at h
  split at h
  · next e => exact absurd e hd
  · dsimp only at h
    split at h
    · have := order_trace h
      exact this
    · repeat' split at h
      all_goals (injection h with h; subst h; simp)

theorem timer_grows {w : World} {c c' : Client} (hd : c.fired = true) (h : clientTimer w c = .ok c') : c.trace.length < c'.trace.length := by
  unfold clientTimer at h
  rw [if_pos hd] at h
  dsimp only at h
  split at h
  · have := order_trace h
    exact this
  · split at h
    · have := order_trace h
      exact this
    · split at h
      all_goals (injection h with h; subst h; simp [Client.finish]; try omega)

theorem left_step {w : World} {c : Client} (h : LeftAlone c) (ht : Calm c) (e : CEv) : cstep w c e = .ok c := by
  obtain ⟨h1, h2, h3, h4⟩ := h
  obtain ⟨h5, h6⟩ := ht
  unfold cstep
  rw [h1]
  cases e with
  | read => show clientRead w c = _; unfold clientRead; rw [h2]; rfl
  | expire => show pure (if c.armed = true then _ else c) = _; rw [h5]; rfl
  | timer => show clientTimer w c = _; unfold clientTimer; rw [h6]; rfl
  | stage => show clientStage w c = _; unfold clientStage; rw [h3]; rfl
  | packet => show clientPacket c = _; unfold clientPacket; rw [h4]; rfl

theorem left_steps {w : World} {c : Client} (h : ∀ e, cstep w c e = .ok c) : ∀ es, csteps w c es = .ok c := by
  intro es
  induction es with
  | nil => rfl
  | cons e es ih => unfold csteps; rw [h e]; exact ih

/-- C101, when the client is deadlocked: once reading has ended, exactly when it has taken everything that was read and no timer is running. -/
theorem C101_deadlock_iff (w : World) (c : Client) (hne : c.ended = false) (hr : c.running = false) :
    Deadlocked w c ↔ c.states = [] ∧ c.data = [] ∧ c.armed = false ∧ c.fired = false := by
  constructor
  · intro ⟨_, h⟩
    have hs : c.states = [] := by
      apply Classical.byContradiction
      intro hs
      have := h .stage
      unfold cstep at this
      rw [hne] at this
      exact absurd (stage_grows hs this) (Nat.lt_irrefl _)
    have hd : c.data = [] := by
      apply Classical.byContradiction
      intro hs
      have := h .packet
      unfold cstep at this
      rw [hne] at this
      exact absurd (packet_grows hs this) (Nat.lt_irrefl _)
    have ha : c.armed = false := by
      cases ha : c.armed with
      | false => rfl
      | true =>
        have := h .expire
        rw [cstep_expire hne, if_pos ha] at this
        injection this with this
        rw [← this] at ha
        cases ha
    have hf : c.fired = false := by
      cases hf : c.fired with
      | false => rfl
      | true =>
        have := h .timer
        unfold cstep at this
        rw [hne] at this
        exact absurd (timer_grows hf this) (Nat.lt_irrefl _)
    exact ⟨hs, hd, ha, hf⟩
  · intro ⟨h1, h2, h3, h4⟩
    exact ⟨hne, left_step ⟨hne, hr, h1, h2⟩ ⟨h3, h4⟩⟩

/-- Nothing ends a deadlocked client. -/
theorem C101_never (w : World) (c : Client) (h : Deadlocked w c) (es : List CEv) : csteps w c es = .ok c := left_steps h.2 es

/-- A request of a client that is left alone, and could be written. -/
theorem order_alone {w : World} {c c' : Client} {verb uri : Bytes} {hs : Header} (ho : c.sess.opened = true) (hl : LeftAlone c) (hc : Calm c)
    (hn : ¬ CannotSend (c.sess.deref (command w c.sess verb uri hs))) (h : c.order (c.sess.deref (command w c.sess verb uri hs)) = .ok c') : LeftAlone c' ∧ Calm c' := by
  rw [deref_open ho] at hn h
  obtain ⟨s, req, res, e, h1, h2, _, _, _, h6⟩ := order_out ho h
  have he : e = none := by
    cases e with
    | none => rfl
    | some e => exact absurd ⟨s, e, h1⟩ hn
  subst he
  rw [h1] at h
  injection h with h
  subst h
  rw [adopt_eq c (o := [.sent false req res]) h2]
  obtain ⟨a1, a2, a3, a4⟩ := hl
  exact ⟨⟨a1, a2, by show c.states ++ [] = []; rw [a3]; rfl, by show c.data ++ [] = []; rw [a4]; rfl⟩, hc⟩

/-- What the last timer can still do. -/
def LastWord (w : World) (c : Client) : Prop :=
  c.state = 4 ∨ c.state = 2 ∧ CannotSend (c.sess.pause w) ∨ c.state = 3 ∧ CannotSend (c.sess.teardown w)

theorem alone_steps {w : World} : ∀ (es : List CEv) {c c' : Client}, c.sess.opened = true → LeftAlone c → ¬ (c.armed = true ∧ c.fired = true) → ¬ LastWord w c →
    csteps w c es = .ok c' → c'.ended = false := by
  intro es
  induction es with
  | nil => intro c c' _ hl _ _ h; injection h with h; subst h; exact hl.1
  | cons e es ih =>
    intro c c' ho hl ht hw h
    by_cases hc : Calm c
    · rw [left_steps (left_step hl hc)] at h
      injection h with h; subst h; exact hl.1
    unfold csteps at h
    have hcalm : c.fired = true → c.armed = false := by
      intro hf
      cases ha : c.armed with
      | false => rfl
      | true => exact absurd ⟨ha, hf⟩ ht
    obtain ⟨h1, h2, h3, h4⟩ := hl
    have hcs : ∀ e, cstep w c e = match (generalizing := false) e with | .read => clientRead w c | .expire => pure (if c.armed then { c with armed := false, fired := true } else c) | .timer => clientTimer w c | .stage => clientStage w c | .packet => clientPacket c := by
      intro e
      unfold cstep
      rw [if_neg (by rw [h1]; decide)]
      cases e <;> rfl
    rw [hcs] at h
    cases e with
    | read =>
      have h : (match clientRead w c with | .error p => _ | .ok c => csteps w c es) = .ok c' := h
      unfold clientRead at h
      rw [h2] at h
      exact ih ho ⟨h1, h2, h3, h4⟩ ht hw h
    | stage =>
      have h : (match clientStage w c with | .error p => _ | .ok c => csteps w c es) = .ok c' := h
      unfold clientStage at h
      rw [h3] at h
      exact ih ho ⟨h1, h2, h3, h4⟩ ht hw h
    | packet =>
      have h : (match clientPacket c with | .error p => _ | .ok c => csteps w c es) = .ok c' := h
      unfold clientPacket at h
      rw [h4] at h
      exact ih ho ⟨h1, h2, h3, h4⟩ ht hw h
    | expire =>
      have h : csteps w (if c.armed = true then { c with armed := false, fired := true } else c) es = .ok c' := h
      by_cases ha : c.armed = true
      · rw [if_pos ha] at h
        exact ih (c := { c with armed := false, fired := true }) ho ⟨h1, h2, h3, h4⟩ (fun h => by cases h.1) hw h
      · rw [if_neg ha] at h
        exact ih ho ⟨h1, h2, h3, h4⟩ ht hw h
    | timer =>
      have h : (match clientTimer w c with | .error p => _ | .ok c => csteps w c es) = .ok c' := h
      unfold clientTimer at h
      by_cases hf : c.fired = true
      · rw [if_pos hf] at h
        dsimp only at h
        have hl' : LeftAlone { c with fired := false, trace := .timer :: c.trace } := ⟨h1, h2, h3, h4⟩
        have hc' : Calm { c with fired := false, trace := .timer :: c.trace } := ⟨hcalm hf, rfl⟩
        split at h
        · cases h
        next d hd =>
        split at hd
        · next hst =>
          obtain ⟨k1, k2⟩ := order_alone (w := w) (c := { c with fired := false, trace := .timer :: c.trace }) ho hl' hc' (fun hx => hw (.inr (.inl ⟨hst, hx⟩))) hd
          rw [left_steps (left_step k1 k2)] at h
          injection h with h; subst h; exact k1.1
        · split at hd
          · next hst =>
            obtain ⟨k1, k2⟩ := order_alone (w := w) (c := { c with fired := false, trace := .timer :: c.trace }) ho hl' hc' (fun hx => hw (.inr (.inr ⟨hst, hx⟩))) hd
            rw [left_steps (left_step k1 k2)] at h
            injection h with h; subst h; exact k1.1
          · split at hd
            · next hst => exact absurd (.inl hst) hw
            · injection hd with hd; subst hd
              rw [left_steps (left_step hl' hc')] at h
              injection h with h; subst h; exact h1
      · rw [if_neg hf] at h
        exact ih ho ⟨h1, h2, h3, h4⟩ ht hw h

/-- C101, the law: a client that has lost its connection, and has taken all that was read, can still end exactly when its timer is running or has
gone off, and the session is done or the request that is then due (PAUSE while playing, TEARDOWN while paused) cannot be written. In all other
cases it waits for ever. -/
theorem C101_ends_iff (w : World) (c : Client) (h : ClientReachable w c) (hl : LeftAlone c) :
    CanEnd w c ↔ (c.armed = true ∨ c.fired = true) ∧
      (c.state = 4 ∨ c.state = 2 ∧ CannotSend (c.sess.pause w) ∨ c.state = 3 ∧ CannotSend (c.sess.teardown w)) := by
  have hi := client_inv h
  have ho := (plain_static hi.reach).1
  have ht : ¬ (c.armed = true ∧ c.fired = true) := by
    obtain ⟨n, _, _, hp⟩ := hi.course
    cases hp hl.1 with
    | waiting k _ _ _ ht => exact fun h => by rw [ht.1] at h; cases h.1
    | told k _ _ _ ht => exact fun h => by rw [ht.1] at h; cases h.1
    | timing k _ _ _ _ ht => exact fun h => by rw [h.1, h.2] at ht; cases ht
  constructor
  · intro ⟨es, c', h1, h2⟩
    constructor
    · apply Classical.byContradiction
      intro hx
      have hc : Calm c := by
        refine ⟨?_, ?_⟩
        · cases ha : c.armed with
          | false => rfl
          | true => exact absurd (.inl ha) hx
        · cases ha : c.fired with
          | false => rfl
          | true => exact absurd (.inr ha) hx
      rw [left_steps (left_step hl hc)] at h1
      injection h1 with h1
      subst h1
      rw [hl.1] at h2
      cases h2
    · apply Classical.byContradiction
      intro hx
      rw [alone_steps es ho hl ht hx h1] at h2
      cases h2
  · intro ⟨h1, h2⟩
    -- when the timer goes off
    have key : ∀ d : Client, d.ended = false → d.fired = true → d.state = c.state → d.sess = c.sess → ∃ d', cstep w d .timer = .ok d' ∧ d'.ended = true := by
      intro d k1 k2 k3 k4
      have : cstep w d .timer = clientTimer w d := by unfold cstep; rw [k1]; rfl
      rw [this]
      unfold clientTimer
      rw [if_pos k2]
      dsimp only
      rw [k3, k4]
      rcases h2 with h2 | ⟨h2, s, e, h3⟩ | ⟨h2, s, e, h3⟩
      · rw [h2]
        exact ⟨_, rfl, rfl⟩
      · rw [h2, h3]
        exact ⟨_, rfl, rfl⟩
      · rw [h2, h3]
        exact ⟨_, rfl, rfl⟩
    by_cases hf : c.fired = true
    · obtain ⟨d, k1, k2⟩ := key c hl.1 hf rfl rfl
      refine ⟨[.timer], d, ?_, k2⟩
      unfold csteps
      rw [k1]; rfl
    · have ha : c.armed = true := h1.resolve_right hf
      obtain ⟨d, k1, k2⟩ := key { c with armed := false, fired := true } hl.1 rfl rfl rfl
      refine ⟨[.expire, .timer], d, ?_, k2⟩
      have : cstep w c .expire = .ok { c with armed := false, fired := true } := by
        rw [cstep_expire hl.1, if_pos ha]; rfl
      unfold csteps
      rw [this]
      show csteps w _ [.timer] = _
      unfold csteps
      rw [k1]; rfl

/-- A connection that takes what is written. -/
theorem sends {w : World} (hw : ∀ o b, w.write o b = .ok) {s : Sess} (ho : s.opened = true) {verb uri : Bytes} {hs : Header} : ¬ CannotSend (s.deref (command w s verb uri hs)) := by
  intro ⟨s', e, h⟩
  have h := deref_ok h
  unfold command at h
  rw [if_neg (by rw [ho]; decide)] at h
  split at h
  · cases h
  · obtain ⟨_, _, he⟩ := writeReq_out h
    rw [hw] at he
    cases he

/-- C101 fails before the session is done: while what is written still seems to be sent (the server has closed its side), a client that has lost its
connection and has taken all that was read never ends. -/
theorem C101_early_refuted (w : World) (hw : ∀ o b, w.write o b = .ok) (c : Client) (h : ClientReachable w c) (hl : LeftAlone c) (hs : c.state ≠ 4) (es : List CEv) (c' : Client)
    (hes : csteps w c es = .ok c') : c'.ended = false := by
  cases he : c'.ended with
  | false => rfl
  | true =>
    have ho := (plain_static (client_inv h).reach).1
    rcases ((C101_ends_iff w c h hl).1 ⟨es, c', hes, he⟩).2 with h | ⟨_, h⟩ | ⟨_, h⟩
    · exact absurd h hs
    · exact absurd h (sends hw ho)
    · exact absurd h (sends hw ho)

-- A connection that is lost while playing, and one that is lost when the session is done: the first client never ends, the second one can.
def demoLeft (c : Client) : Bool × Bool × Bool × Nat × Bool × Bool := (c.ended, c.running, c.states.isEmpty && c.data.isEmpty, c.state, c.armed, c.fired)

theorem demoLeft_alone {c : Client} {n : Nat} {a : Bool} (h : demoLeft c = (false, false, true, n, a, false)) : LeftAlone c ∧ c.state = n ∧ c.armed = a := by
  unfold demoLeft at h
  simp only [Prod.mk.injEq, Bool.and_eq_true, List.isEmpty_iff] at h
  exact ⟨⟨h.1, h.2.1, h.2.2.1.1, h.2.2.1.2⟩, h.2.2.2.1, h.2.2.2.2.1⟩

example : ∃ c, ClientReachable demoWorld c ∧ LeftAlone c ∧ c.state = 2 ∧ c.armed = true ∧ ¬ CanEnd demoWorld c := by
  obtain ⟨c, h1, h2⟩ := demoClient_shows (frames := []) (es := demoPlay ++ [.read]) (f := demoLeft) (a := (false, false, true, 2, true, false)) (by decide +kernel)
  obtain ⟨h3, h4, h5⟩ := demoLeft_alone h2
  exact ⟨c, h1, h3, h4, h5, fun ⟨es, c', k1, k2⟩ => by rw [C101_early_refuted _ (fun _ _ => rfl) c h1 h3 (by rw [h4]; decide) es c' k1] at k2; cases k2⟩

example : ∃ c, ClientReachable demoWorld c ∧ LeftAlone c ∧ c.state = 4 ∧ c.armed = true ∧ CanEnd demoWorld c := by
  obtain ⟨c, h1, h2⟩ := demoClient_shows (frames := []) (es := demoPlay ++ demoStop.take 8 ++ [.read]) (f := demoLeft) (a := (false, false, true, 4, true, false)) (by decide +kernel)
  obtain ⟨h3, h4, h5⟩ := demoLeft_alone h2
  exact ⟨c, h1, h3, h4, h5, (C101_ends_iff _ c h1 h3).2 ⟨.inl h5, .inl h4⟩⟩

/-- What the client looks like while the server is silent. -/
structure Alone (c : Client) : Prop where
  ended : c.ended = false
  states : c.states = []
  data : c.data = []
  calm : Calm c
  rdr : ∃ k, c.rdr = ⟨[], none, List.replicate k .timeout⟩

theorem alone_step {w : World} {c c' : Client} (h : Alone c) (e : CEv) (hs : cstep w c e = .ok c') : Alone c' := by
  obtain ⟨h1, h2, h3, ⟨h4, h5⟩, k, h6⟩ := h
  unfold cstep at hs
  rw [if_neg (by rw [h1]; decide)] at hs
  cases e with
  | read =>
    have hs : clientRead w c = .ok c' := hs
    unfold clientRead at hs
    split at hs
    · rw [h6] at hs
      cases k with
      | zero =>
        rw [recv_nil rfl rfl] at hs
        injection hs with hs; subst hs
        exact ⟨h1, h2, h3, ⟨h4, h5⟩, 0, rfl⟩
      | succ k =>
        have : recv ⟨[], none, List.replicate (k + 1) .timeout⟩ = (.error (.io .timeout), ⟨[], none, List.replicate k .timeout⟩) := by
          rw [List.replicate_succ]; rfl
        rw [this] at hs
        injection hs with hs; subst hs
        exact ⟨h1, h2, h3, ⟨h4, h5⟩, k, rfl⟩
    · injection hs with hs; subst hs
      exact ⟨h1, h2, h3, ⟨h4, h5⟩, k, h6⟩
  | expire =>
    have hs : pure (if c.armed = true then { c with armed := false, fired := true } else c) = Except.ok c' := hs
    rw [h4] at hs
    injection hs with hs; subst hs
    exact ⟨h1, h2, h3, ⟨h4, h5⟩, k, h6⟩
  | timer =>
    have hs : clientTimer w c = .ok c' := hs
    unfold clientTimer at hs
    rw [h5] at hs
    injection hs with hs; subst hs
    exact ⟨h1, h2, h3, ⟨h4, h5⟩, k, h6⟩
  | stage =>
    have hs : clientStage w c = .ok c' := hs
    unfold clientStage at hs
    rw [h2] at hs
    injection hs with hs; subst hs
    exact ⟨h1, h2, h3, ⟨h4, h5⟩, k, h6⟩
  | packet =>
    have hs : clientPacket c = .ok c' := hs
    unfold clientPacket at hs
    rw [h3] at hs
    injection hs with hs; subst hs
    exact ⟨h1, h2, h3, ⟨h4, h5⟩, k, h6⟩

theorem alone_csteps {w : World} : ∀ (es : List CEv) {c c' : Client}, Alone c → csteps w c es = .ok c' → Alone c' := by
  intro es
  induction es with
  | nil => intro c c' h hs; injection hs with hs; subst hs; exact h
  | cons e es ih =>
    intro c c' h hs
    unfold csteps at hs
    split at hs
    · cases hs
    · next d hd => exact ih (alone_step h e hd) hs

theorem alone_reads {w : World} : ∀ (k : Nat) {c : Client}, Alone c → c.running = true → c.rdr = ⟨[], none, List.replicate k .timeout⟩ →
    ∃ c', csteps w c (List.replicate (k + 1) .read) = .ok c' ∧ c'.running = false := by
  intro k
  induction k with
  | zero =>
    intro c h hr h6
    obtain ⟨h1, h2, h3, ⟨h4, h5⟩, _, _⟩ := h
    refine ⟨{ c with rdr := ⟨[], none, []⟩, running := false }, ?_, rfl⟩
    show (match cstep w c .read with | .error p => _ | .ok c => csteps w c []) = _
    have : cstep w c .read = .ok { c with rdr := ⟨[], none, []⟩, running := false } := by
      unfold cstep
      rw [if_neg (by rw [h1]; decide)]
      show clientRead w c = _
      unfold clientRead
      rw [if_pos ⟨hr, h2, by rw [h3]; exact Nat.zero_le _⟩, h6, recv_nil rfl rfl]; rfl
    rw [this]; rfl
  | succ k ih =>
    intro c h hr h6
    have hc : cstep w c .read = .ok { c with rdr := ⟨[], none, List.replicate k .timeout⟩ } := by
      unfold cstep
      rw [if_neg (by rw [h.ended]; decide)]
      show clientRead w c = _
      unfold clientRead
      have : recv ⟨[], none, List.replicate (k + 1) .timeout⟩ = (.error (.io .timeout), ⟨[], none, List.replicate k .timeout⟩) := by
        rw [List.replicate_succ]; rfl
      rw [if_pos ⟨hr, h.states, by rw [h.data]; exact Nat.zero_le _⟩, h6, this]; rfl
    obtain ⟨c', h1, h2⟩ := ih (alone_step h .read hc) hr rfl
    refine ⟨c', ?_, h2⟩
    rw [List.replicate_succ]
    unfold csteps
    rw [hc]; exact h1

theorem alone_turns {w : World} (k : Nat) : ∀ {c c' : Client}, Alone c → clientEarly.turns w k c = .ok c' → Alone c' ∧ c'.sess = c.sess := by
  induction k with
  | zero => intro c c' h hs; injection hs with hs; subst hs; exact ⟨h, rfl⟩
  | succ k ih =>
    intro c c' h hs
    unfold clientEarly.turns at hs
    cases hr : clientRead w c with
    | error p => rw [hr] at hs; cases hs
    | ok d =>
      rw [hr] at hs
      have hd : Alone d := alone_step h .read (by unfold cstep; rw [if_neg (by rw [h.ended]; decide)]; exact hr)
      obtain ⟨h1, h2⟩ := ih hd hs
      refine ⟨h1, h2.trans ?_⟩
      obtain ⟨j, h6⟩ := h.rdr
      unfold clientRead at hr
      split at hr
      · rw [h6] at hr
        cases j with
        | zero =>
          rw [recv_nil rfl rfl] at hr
          injection hr with hr; subst hr; rfl
        | succ j =>
          have : recv ⟨[], none, List.replicate (j + 1) .timeout⟩ = (.error (.io .timeout), ⟨[], none, List.replicate j .timeout⟩) := by
            rw [List.replicate_succ]; rfl
          rw [this] at hr
          injection hr with hr; subst hr; rfl
      · injection hr with hr; subst hr; rfl

/-- C101 fails: if the server takes OPTIONS and closes the connection without an answer, at once or after any time, the client does not end, whatever
the order of events; and it comes to wait for ever. -/
theorem C101_lost_refuted (w : World) (uri : Bytes) (user : Option (Bytes × Bytes)) (n : Nat) (c0 : Client)
    (ho : clientOpen w uri user ⟨[], none, List.replicate n .timeout⟩ = .ok c0) (hne : c0.ended = false) :
    (∀ es c, ClientRuns w uri user (List.replicate n .timeout) es c → c.ended = false) ∧
    ∃ es c, ClientRuns w uri user (List.replicate n .timeout) es c ∧ Deadlocked w c := by
  have ha : Alone c0 ∧ c0.running = true ∧ c0.rdr = ⟨[], none, List.replicate n .timeout⟩ := by
    unfold clientOpen Sess.options at ho
    obtain ⟨s, req, res, e, h1, h2, _, _, _, h6⟩ := order_out rfl ho
    have hd := adopt_eq { rdr := ⟨[], none, List.replicate n .timeout⟩, sess := { newSession with opened := true, baseURI := uri, proto := .tcp, user := user } } (o := [.sent false req res]) h2
    rcases h6 with ⟨_, h6⟩ | ⟨_, h6⟩
    · rw [hd] at h6
      subst h6
      exact ⟨⟨rfl, rfl, rfl, ⟨rfl, rfl⟩, n, rfl⟩, rfl, rfl⟩
    · subst h6; cases hne
  obtain ⟨ha, hr, h6⟩ := ha
  constructor
  · intro es c ⟨j, c1, h1, h2⟩
    obtain ⟨b, hb, ht, h1, _⟩ := early_before h1
    obtain ⟨hal, hse⟩ := alone_turns j (c := { rdr := ⟨[], none, List.replicate n .timeout⟩, sess := { newSession with opened := true, baseURI := uri, proto := .tcp, user := user } })
      ⟨rfl, rfl, rfl, ⟨rfl, rfl⟩, n, rfl⟩ ht
    unfold clientOpen Sess.options at ho
    obtain ⟨s, req, res, e, k1, k2, _, _, _, k6⟩ := order_out hb.opened h1
    obtain ⟨s0, req0, res0, e0, l1, l2, _, _, _, l6⟩ := order_out rfl ho
    rw [hse] at k1
    have l1 : command w { newSession with opened := true, baseURI := uri, proto := .tcp, user := user } verbOptions uri [] = .ok (s0, e0) := l1
    rw [l1] at k1
    injection k1 with k1
    injection k1 with ks ke
    subst ks ke
    have hd := adopt_eq b (o := [.sent false req res]) k2
    rw [l2] at k2
    injection k2 with k2
    injection k2 with _ _ hres
    rcases l6 with ⟨he, _⟩ | ⟨_, l6⟩
    · rcases k6 with ⟨_, k6⟩ | ⟨hx, _⟩
      · rw [hd] at k6
        have hc1 : Alone c1 := by
          subst k6
          exact ⟨hal.ended, by show _ ++ _ = _; rw [hal.states]; rfl, by show _ ++ _ = _; rw [hal.data]; rfl, hal.calm, hal.rdr⟩
        exact (alone_csteps es hc1 h2).ended
      · exact absurd (hres ▸ he) hx
    · subst l6; cases hne
  · obtain ⟨c, h1, h2⟩ := alone_reads (w := w) n ha hr h6
    have hc := alone_csteps _ ha h1
    exact ⟨_, c, ⟨0, c0, ho, h1⟩, (C101_deadlock_iff w c hc.ended h2).2 ⟨hc.states, hc.data, hc.calm.1, hc.calm.2⟩⟩

example : ∃ c0, clientOpen demoWorld b!"rtsp://h/x" none ⟨[], none, List.replicate 3 .timeout⟩ = .ok c0 ∧ c0.ended = false := ⟨_, rfl, rfl⟩

end Ouro
