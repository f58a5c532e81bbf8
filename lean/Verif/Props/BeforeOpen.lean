import Verif.Props.CrashExact
/-! # C112: calls on a session that has not been opened -/
namespace Ouro
open Spec

/-- C112 fails: on a new session every call that uses the connection panics. -/
theorem C112_before_refuted (w : World) (op : Op) (h : UsesConn op) : Panics (step w newSession op) := by
  have hr : Reachable w newSession := ⟨[], rfl⟩
  refine (C75_session_iff w newSession hr (by decide) op ?_).2 (.inl ⟨rfl, h⟩)
  rintro uri proto user rfl
  exact h.elim

/-- **C112**, exact: calls on a session that is never opened panic exactly if one of them is other than `Setup`. -/
theorem C112_iff (w : World) (ops : List Op) (h : ∀ op ∈ ops, UsesConn op ∨ op = .setup) : Panics (run w newSession ops) ↔ ∃ op ∈ ops, op ≠ .setup := by
  induction ops with
  | nil =>
    constructor
    · rintro ⟨p, hp⟩; cases hp
    · rintro ⟨op, hop, _⟩; cases hop
  | cons op ops ih =>
    rcases h op (by simp) with hu | rfl
    · obtain ⟨p, hp⟩ := C112_before_refuted w op hu
      refine iff_of_true ⟨p, by rw [run, hp]⟩ ⟨op, by simp, ?_⟩
      rintro rfl
      exact hu.elim
    · have e : run w newSession (.setup :: ops) = run w newSession ops := rfl
      rw [e, ih fun o ho => h o (by simp [ho])]
      constructor
      · rintro ⟨o, ho, hn⟩; exact ⟨o, by simp [ho], hn⟩
      · rintro ⟨o, ho, hn⟩
        rcases List.mem_cons.1 ho with rfl | ho
        · exact absurd rfl hn
        · exact ⟨o, ho, hn⟩

example (w : World) : Panics (run w newSession [.setup, .setup, .teardown]) := (C112_iff w _ (by
  intro op hop
  simp only [List.mem_cons, List.not_mem_nil, or_false] at hop
  rcases hop with rfl | rfl | rfl
  · exact .inr rfl
  · exact .inr rfl
  · exact .inl trivial)).2 ⟨.teardown, by simp, by simp⟩

/-- C112 partially: once a session has been opened (other than over HTTP) no call panics, whatever has happened and however often the connection has been lost. -/
theorem C112_after_partial (w : World) (uri : Bytes) (proto : Proto) (user : Option (Bytes × Bytes)) (before after : List Op) (s : Sess)
    (h : run w newSession (before ++ .open_ uri proto user :: after) = .ok s) (hp : s.proto ≠ .http) (op : Op) (hop : UsesConn op ∨ op = .setup) : ¬ Panics (step w s op) := by
  have ho : s.opened = true := by
    have stays : ∀ (ops : List Op) (s s' : Sess), s.opened = true → run w s ops = .ok s' → s'.opened = true := by
      intro ops
      induction ops with
      | nil => intro s s' ho h; injection h with h; subst h; exact ho
      | cons op ops ih =>
        intro s s' ho h
        unfold run at h
        cases hs : step w s op with
        | error p => rw [hs] at h; cases h
        | ok r =>
          obtain ⟨t, e⟩ := r
          rw [hs] at h
          refine ih t s' ?_ h
          by_cases hop : Opens op
          · rcases opens_cases hop with ⟨a, b, c, rfl⟩ | ⟨a, b, c, rfl⟩
            · injection hs with hs; injection hs with hs _; subst hs; rfl
            exact (command_static (show command w { s with opened := true, baseURI := a, proto := b, user := c, sinks := [] } verbOptions a [] = .ok (t, e) from hs)).1
          · rw [(step_static hop hs).1, ho]
    have split : ∀ (ops : List Op) (s0 : Sess), run w s0 (ops ++ .open_ uri proto user :: after) = .ok s → s.opened = true := by
      intro ops
      induction ops with
      | nil =>
        intro s0 h
        rw [List.nil_append] at h
        unfold run at h
        cases hs : step w s0 (.open_ uri proto user) with
        | error p => rw [hs] at h; cases h
        | ok r =>
          obtain ⟨t, e⟩ := r
          rw [hs] at h
          refine stays after t s ?_ h
          exact (command_static (show command w { s0 with opened := true, baseURI := uri, proto := proto, user := user, sinks := [] } verbOptions uri [] = .ok (t, e) from hs)).1
      | cons op ops ih =>
        intro s0 h
        rw [List.cons_append] at h
        unfold run at h
        cases hs : step w s0 op with
        | error p => rw [hs] at h; cases h
        | ok r =>
          obtain ⟨t, e⟩ := r
          rw [hs] at h
          exact ih t h
    exact split before newSession h
  rw [C75_session_iff w s ⟨_, h⟩ hp op (by rintro a b c rfl; rcases hop with h | h; exact h.elim; cases h)]
  rintro (⟨h1, _⟩ | ⟨rsp, rfl, _⟩)
  · rw [ho] at h1; cases h1
  · rcases hop with h | h
    · exact h.elim
    · cases h

example : ∃ s, run demoWorld newSession ([] ++ demoOpen :: [demo401 1]) = .ok s ∧ s.proto ≠ .http := ⟨_, rfl, by decide⟩

theorem setupLoop_connected {w : World} (fs : List Feed) : ∀ {done : List Feed} {s s' : Sess}, s.opened = true → setupLoop w done fs s ≠ .ok (s', some .noConnection) := by
  induction fs with
  | nil => intro done s s' _ h; cases h
  | cons f fs ih =>
    intro done s s' ho h
    unfold setupLoop at h
    cases hc : command w s verbSetup (setupURI s.baseURI f.media.control) [(b!"Transport", f.transportHeader)] with
    | error p => rw [hc] at h; cases h
    | ok r =>
      obtain ⟨t, e1⟩ := r
      rw [hc] at h
      rcases command_out hc with ⟨hf, _⟩ | ⟨_, _, a, x, res, ht, he⟩
      · rw [ho] at hf; cases hf
      · cases e1 with
        | none => exact ih (by rw [ht]; exact ho) h
        | some e1 =>
          injection h with h; injection h with _ h; injection h with h
          subst h
          cases res <;> cases he

theorem setupAnswer_connected {w : World} {rsp : Response} (fs : List Feed) : ∀ {done : List Feed} {s s' : Sess}, setupAnswer w rsp done fs s ≠ .ok (s', some .noConnection) := by
  have sink : ∀ {s s' : Sess} {ch : UInt8} {port : Int}, addSink w s ch port ≠ (s', some .noConnection) := by
    intro s s' ch port h
    unfold addSink at h
    split at h <;> (injection h with _ h; cases h)
  induction fs with
  | nil => intro done s s' h; cases h
  | cons f fs ih =>
    intro done s s' h
    unfold setupAnswer at h
    split at h
    · split at h
      · cases h
      · next f' e ht =>
        dsimp only at h
        cases e with
        | some e => injection h with h; injection h with _ h; cases h
        | none =>
          dsimp only at h
          split at h
          · exact ih h
          · split at h
            · next s1 e1 h1 =>
              injection h with h; injection h with _ h; injection h with h
              subst h
              exact sink h1
            · split at h
              · next s2 e2 h2 =>
                injection h with h; injection h with _ h; injection h with h
                subst h
                exact sink h2
              · exact ih h
    · exact ih h

/-- **C112**: the error that says a connection is required is never what a caller gets, in any history. -/
theorem C112_never_reported (w : World) (s : Sess) (h : Reachable w s) (op : Op) (s' : Sess) : step w s op ≠ .ok (s', some .noConnection) := by
  have cmd : ∀ {s s' : Sess} {verb uri : Bytes} {hs : Header}, s.opened = true → command w s verb uri hs ≠ .ok (s', some .noConnection) := by
    intro s s' verb uri hs ho h
    rcases command_out h with ⟨hf, _⟩ | ⟨_, _, a, x, res, ht, he⟩
    · rw [ho] at hf; cases hf
    · cases res <;> cases he
  have dcmd : ∀ {s s' : Sess} {verb uri : Bytes} {hs : Header}, s.deref (command w s verb uri hs) ≠ .ok (s', some .noConnection) :=
    fun h => cmd (deref_opened h) (deref_ok h)
  intro hs
  cases op with
  | dial uri proto user => cases hs
  | open_ uri proto user =>
    exact cmd rfl (show command w { s with opened := true, baseURI := uri, proto := proto, user := user, sinks := [] } verbOptions uri [] = _ from hs)
  | options => exact dcmd hs
  | describe => exact dcmd hs
  | setup =>
    by_cases ho : s.opened = true
    · exact setupLoop_connected s.feeds ho hs
    · have hs : setupLoop w [] s.feeds s = _ := hs
      rw [(reachable_began h (by simpa using ho)).2] at hs
      cases hs
  | play => exact dcmd hs
  | pause => exact dcmd hs
  | teardown => exact dcmd hs
  | keepAlive due =>
    have ho := deref_opened hs
    have hs := deref_ok hs
    split at hs
    · exact cmd ho hs
    · cases hs
  | item i =>
    cases i with
    | frame ch p => cases hs
    | response rsp =>
      have hs : handleRtsp w { s with out := .got rsp :: s.out } rsp = .ok (s', some .noConnection) := hs
      unfold handleRtsp at hs
      split at hs
      · cases hs
      · next req hf =>
        have ho : s.opened = true := by
          cases ho : s.opened with
          | true => rfl
          | false =>
            have hf : s.find rsp.cseq = some req := hf
            unfold Sess.find at hf
            rw [(reachable_began h ho).1] at hf
            cases hf
        split at hs
        · unfold retry at hs
          split at hs
          · cases hs
          · next t e ha =>
            injection hs with hs; injection hs with _ hs; injection hs with hs
            subst hs
            unfold authorize at ha
            split at ha
            · cases ha
            · split at ha
              · cases ha
              · split at ha
                · cases ha
                · cases ha
          · split at hs
            · cases hs
            · dsimp only at hs
              obtain ⟨_, _, he⟩ := writeReq_out hs
              split at he <;> cases he
        · rw [learnSession_eq] at hs
          unfold answer at hs
          split at hs
          · split at hs
            · exact dcmd hs
            · cases hs
          · split at hs
            · split at hs
              · split at hs
                · cases hs
                · refine setupLoop_connected _ ?_ hs; exact ho
              · cases hs
            · split at hs
              · cases hs
              · split at hs
                · cases hs
                · split at hs
                  · cases hs
                  · split at hs
                    · unfold handleSetup at hs
                      split at hs
                      · split at hs
                        · cases hs
                        · next t e ha =>
                          injection hs with hs; injection hs with _ hs; injection hs with hs
                          subst hs
                          exact setupAnswer_connected _ ha
                        · cases hs
                      · first | cases hs | (split at hs <;> cases hs)
                    · cases hs

end Ouro
