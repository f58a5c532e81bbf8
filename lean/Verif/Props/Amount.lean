import Verif.Lemmas.Amount
import Verif.Props.Main
/-! # C120: a request for every ten bytes -/
namespace Ouro
open Spec

/-! ## The session -/

/-- Requests and stages. -/
def spent (o : List Out) : Nat := (o.filter fun x => match x with | .sent _ _ _ => true | .notified _ => true | _ => false).length

theorem spent_append (a b : List Out) : spent (a ++ b) = spent a + spent b := by unfold spent; rw [List.filter_append, List.length_append]

theorem command_spent {w : World} {s s' : Sess} {verb uri : Bytes} {hs : Header} {e : Option SErr} (h : command w s verb uri hs = .ok (s', e)) :
    spent s'.out ≤ spent s.out + 1 := by
  rcases command_out h with ⟨_, rfl, _⟩ | ⟨_, _, a, x, res, rfl, _⟩
  · omega
  · exact Nat.le_refl _

theorem deref_spent {s : Sess} {k : Go (Sess × Option SErr)} {r : Sess × Option SErr} (h : s.deref k = .ok r) : k = .ok r := by
  unfold Sess.deref at h
  split at h
  · cases h
  · exact h

theorem setupLoop_spent {w : World} (fs : List Feed) : ∀ {done : List Feed} {s s' : Sess} {e : Option SErr}, setupLoop w done fs s = .ok (s', e) →
    spent s'.out ≤ spent s.out + fs.length := by
  induction fs with
  | nil => intro done s s' e h; injection h with h; injection h with h _; subst h; exact Nat.le_refl _
  | cons f fs ih =>
    intro done s s' e h
    rw [setupLoop] at h
    cases hc : command w s verbSetup (setupURI s.baseURI f.media.control) [(b!"Transport", f.transportHeader)] with
    | error p => rw [hc] at h; cases h
    | ok r =>
      obtain ⟨s1, e1⟩ := r
      rw [hc] at h
      have h1 := command_spent hc
      rw [List.length_cons]
      cases e1 with
      | some e1 => injection h with h; injection h with h _; subst h; omega
      | none =>
        have h2 := ih h
        have h3 : spent s1.out ≤ spent s.out + 1 := h1
        have h4 : spent s'.out ≤ spent s1.out + fs.length := h2
        omega

theorem setupAnswer_spent {w : World} {rsp : Response} (fs : List Feed) : ∀ {done : List Feed} {s s' : Sess} {e : Option SErr},
    setupAnswer w rsp done fs s = .ok (s', e) → s'.out = s.out := by
  have ha : ∀ {s s' : Sess} {ch : UInt8} {port : Int} {e : Option SErr}, addSink w s ch port = (s', e) → s'.out = s.out := by
    intro s s' ch port e h
    unfold addSink at h
    split at h <;> (injection h with h _; subst h; rfl)
  induction fs with
  | nil => intro done s s' e h; injection h with h; injection h with h _; subst h; rfl
  | cons f fs ih =>
    intro done s s' e h
    unfold setupAnswer at h
    split at h
    · split at h
      · cases h
      · dsimp only at h
        split at h
        · injection h with h; injection h with h _; subst h; rfl
        · split at h
          · have := ih h; exact this
          · split at h
            · rename_i h1; injection h with h; injection h with h _; subst h; have k1 := ha h1; exact k1
            · rename_i h1
              have k1 := ha h1
              split at h
              · rename_i h2; injection h with h; injection h with h _; subst h; exact (ha h2).trans k1
              · rename_i h2; exact (ih h).trans ((ha h2).trans k1)
    · exact ih h

theorem checkReady_spent (s : Sess) : spent (checkReady s).out ≤ spent s.out + 1 := by
  unfold checkReady
  split
  · exact Nat.le_refl _
  · exact Nat.le_succ _

theorem handleSetup_spent {w : World} {s s' : Sess} {rsp : Response} {e : Option SErr} (h : handleSetup w s rsp = .ok (s', e)) : spent s'.out ≤ spent s.out + 1 := by
  unfold handleSetup at h
  split at h
  · split at h
    · cases h
    · rename_i h1; injection h with h; injection h with h _; subst h; rw [setupAnswer_spent _ h1]; omega
    · rename_i h1; injection h with h; injection h with h _; subst h; rw [← setupAnswer_spent _ h1]; exact checkReady_spent _
  · split at h
    · injection h with h; injection h with h _; subst h; exact checkReady_spent _
    · injection h with h; injection h with h _; subst h; exact checkReady_spent _

theorem retry_spent {w : World} {s s' : Sess} {req : Request} {ch : Bytes} {e : Option SErr} (h : retry w s req ch = .ok (s', e)) : spent s'.out ≤ spent s.out + 1 := by
  rcases retry_out h with ⟨x, rfl, _⟩ | ⟨a, x, res, rfl, _⟩
  · exact Nat.le_succ _
  · exact Nat.le_refl _

theorem answer_spent {w : World} {s s' : Sess} {verb : Bytes} {rsp : Response} {e : Option SErr} (h : answer w s verb rsp = .ok (s', e)) :
    10 * spent s'.out ≤ 10 * spent s.out + 10 + (rsp.body.getD []).length := by
  have hn : ∀ (p : Prop) [Decidable p] (st : Nat), spent (if p then notify s st else s).out ≤ spent s.out + 1 := by
    intro p _ st
    split
    · exact Nat.le_refl _
    · exact Nat.le_succ _
  unfold answer at h
  split at h
  · split at h
    · have := command_spent (deref_spent h)
      have : spent s'.out ≤ spent s.out + 1 := this
      omega
    · injection h with h; injection h with h _; subst h; omega
  · split at h
    · split at h
      · rename_i body hb
        split at h
        · cases h
        · rename_i feeds hp
          have h1 := setupLoop_spent _ h
          have h1 : spent s'.out ≤ spent s.out + feeds.length := h1
          have h2 := parseFeeds_weight hp
          rw [hb]
          show _ ≤ _ + 10 + body.length
          omega
      · injection h with h; injection h with h _; subst h; omega
    · split at h
      · injection h with h; injection h with h _; subst h; have := hn (rsp.statusCode = 200) stagePause; omega
      · split at h
        · injection h with h; injection h with h _; subst h; have := hn (rsp.statusCode = 200) stagePlay; omega
        · split at h
          · injection h with h; injection h with h _; subst h; have := hn (rsp.statusCode = 200) stageDone; omega
          · split at h
            · have := handleSetup_spent h; omega
            · injection h with h; injection h with h _; subst h; omega

theorem learnSession_out (s : Sess) (v : Bytes) : (learnSession s v).out = s.out := by
  unfold learnSession
  split
  · split <;> rfl
  · rfl

theorem response_spent {w : World} {s s' : Sess} {rsp : Response} {e : Option SErr} (h : handleItem w s (.response rsp) = .ok (s', e)) :
    10 * spent s'.out ≤ 10 * spent s.out + 10 + (rsp.body.getD []).length := by
  have h : handleRtsp w { s with out := .got rsp :: s.out } rsp = .ok (s', e) := h
  unfold handleRtsp at h
  split at h
  · injection h with h; injection h with h _; subst h
    show 10 * spent s.out ≤ _
    omega
  · split at h
    · have := retry_spent h
      have : spent s'.out ≤ spent s.out + 1 := this
      omega
    · have := answer_spent h
      rw [learnSession_out] at this
      exact this

/-! ## The client -/

/-- Every request, every stage to be received and every timer has been paid for. -/
def Paid (k : Nat) (c : Client) : Prop :=
  10 * (requests c.trace + c.states.length + (if c.armed then 1 else 0) + (if c.fired then 1 else 0)) + undelivered c.rdr ≤ k

theorem requests_append (a b : List Act) : requests (a ++ b) = requests a + requests b := by unfold requests; rw [List.filter_append, List.length_append]

theorem spent_split (o : List Out) : spent o = requests (o.map .wire) + (sentStages o).length := by
  unfold spent requests sentStages
  induction o with
  | nil => rfl
  | cons x o ih =>
    rw [List.reverse_cons, List.filterMap_append, List.length_append] at *
    cases x <;> simp_all <;> omega

/-- A command of the client's loop: one more request. -/
theorem paid_order {w : World} {k : Nat} {c c' : Client} {verb uri : Bytes} {hs : Header} 
    (h : 10 * (requests c.trace + 1 + c.states.length + (if c.armed then 1 else 0) + (if c.fired then 1 else 0)) + undelivered c.rdr ≤ k) (hopen : c.sess.opened = true)
    (hc : c.order (c.sess.deref (command w c.sess verb uri hs)) = .ok c') : Paid k c' := by
  rw [deref_open hopen] at hc
  obtain ⟨s, req, res, e, _, ho, hverb, _, _, hcase⟩ := order_out hopen hc
  have ho : s.out = [.sent false req res] ++ c.sess.out := ho
  have hb : Paid k (c.adopt s) := by
    rw [adopt_eq c ho]
    have : c.states ++ sentStages [.sent false req res] = c.states := List.append_nil _
    unfold Paid
    dsimp only
    rw [this, requests_append, show requests ([.sent false req res].map Act.wire) = 1 from rfl, Nat.add_comm 1]
    exact h
  rcases hcase with ⟨_, rfl⟩ | ⟨hres, rfl⟩
  · exact hb
  · exact hb

theorem paid_read {w : World} {k : Nat} {c c' : Client} (hi : Paid k c) (h : clientRead w c = .ok c') : Paid k c' := by
  unfold clientRead at h
  split at h
  · rename_i hcan
    have hl := recv_left c.rdr
    have less : ∀ r b, undelivered r ≤ undelivered c.rdr → Paid k { c with rdr := r, running := b } := by
      intro r b hr
      unfold Paid at hi ⊢
      dsimp only at hi ⊢
      omega
    split at h
    · rename_i r hq; rw [hq] at hl; injection h with h; subst h; exact less r c.running hl
    · rename_i r _ hq; rw [hq] at hl; injection h with h; subst h; exact less r false hl
    · rename_i item r hq
      rw [hq] at hl
      cases hs : handleItem w c.sess item with
      | error p => rw [hs] at h; cases h
      | ok r' =>
        obtain ⟨s, e⟩ := r'
        rw [hs] at h
        injection h with h; subst h
        cases item with
        | frame ch p =>
          injection hs with hs; injection hs with hs _; subst hs
          rw [adopt_eq (c := { c with rdr := r, running := goesOn e }) (o := [.data ch p]) rfl]
          have : c.states ++ sentStages [.data ch p] = c.states := List.append_nil _
          have hp := less r (goesOn e) hl
          unfold Paid at hp ⊢
          dsimp only at hp ⊢
          rw [this]
          exact hp
        | response rsp =>
          have ht := recv_taken hq
          have hsp := response_spent hs
          obtain ⟨o, ho⟩ : ∃ o, s.out = o ++ c.sess.out := by
            cases response_effect hs with
            | plain own ho hown hst hq hset => exact ⟨own ++ [.got rsp], by rw [ho]; simp⟩
            | retried req res ho hst hq hin => exact ⟨[.sent true req res, .got rsp], ho⟩
            | granted st v ho hst hv hc hq => exact ⟨[.notified st, .got rsp], ho⟩
            | ready sinks ho hst hq hin hall => exact ⟨[.started sinks, .notified 1, .got rsp], ho⟩
          rw [ho, spent_append, spent_split o] at hsp
          rw [adopt_eq (c := { c with rdr := r, running := goesOn e }) ho]
          unfold Paid at hi ⊢
          dsimp only at hi ⊢
          rw [requests_append, List.length_append]
          omega
  · injection h with h; subst h; exact hi

theorem read_opened {w : World} {c c' : Client} (ho : c.sess.opened = true) (h : clientRead w c = .ok c') : c'.sess.opened = true := by
  unfold clientRead at h
  split at h
  · split at h
    · injection h with h; subst h; exact ho
    · injection h with h; subst h; exact ho
    · rename_i item r hq
      cases hs : handleItem w c.sess item with
      | error p => rw [hs] at h; cases h
      | ok r' =>
        obtain ⟨s, e⟩ := r'
        rw [hs] at h
        injection h with h; subst h
        exact (step_static (op := .item item) (fun h => by (cases h)) hs).1.trans ho
  · injection h with h; subst h; exact ho

theorem paid_step {w : World} {k : Nat} {c c' : Client} {e : CEv} (hi : Paid k c) (hopen : c.sess.opened = true) (h : cstep w c e = .ok c') : Paid k c' := by
  unfold cstep at h
  split at h
  · injection h with h; subst h; exact hi
  · cases e with
    | read => exact paid_read hi h
    | expire =>
      injection h with h; subst h
      split
      · rename_i ha
        unfold Paid at hi ⊢
        rw [if_pos ha] at hi
        dsimp only
        rw [if_pos rfl, if_neg (by decide)]
        split at hi <;> omega
      · exact hi
    | timer =>
      dsimp only at h
      unfold clientTimer at h
      split at h
      · rename_i hf
        dsimp only at h
        have hn : 10 * (requests c.trace + 1 + c.states.length + (if c.armed then 1 else 0) + 0) + undelivered c.rdr ≤ k := by
          unfold Paid at hi
          rw [if_pos hf] at hi
          omega
        have hl : Paid k { c with fired := false, trace := .timer :: c.trace } := by
          show 10 * (requests c.trace + c.states.length + (if c.armed then 1 else 0) + 0) + undelivered c.rdr ≤ k
          omega
        split at h
        · exact paid_order (c := { c with fired := false, trace := .timer :: c.trace }) hn hopen h
        · split at h
          · exact paid_order (c := { c with fired := false, trace := .timer :: c.trace }) hn hopen h
          · split at h
            · injection h with h; subst h; exact hl
            · injection h with h; subst h; exact hl
      · injection h with h; subst h; exact hi
    | stage =>
      dsimp only at h
      unfold clientStage at h
      split at h
      · injection h with h; subst h; exact hi
      · rename_i n ks hks
        dsimp only at h
        have hl : 10 * (requests c.trace + 1 + ks.length + (if c.armed then 1 else 0) + (if c.fired then 1 else 0)) + undelivered c.rdr ≤ k := by
          unfold Paid at hi
          rw [hks, List.length_cons] at hi
          omega
        have harm : Paid k { c with states := ks, state := n, armed := true, trace := .stage n :: c.trace } := by
          unfold Paid
          dsimp only
          have : requests (.stage n :: c.trace) = requests c.trace := rfl
          rw [this, if_pos rfl]
          split at hl <;> omega
        split at h
        · exact paid_order (c := { c with states := ks, state := n, trace := .stage n :: c.trace }) hl hopen h
        · split at h
          · injection h with h; subst h; exact harm
          · split at h
            · injection h with h; subst h; exact harm
            · split at h
              · injection h with h; subst h; exact harm
              · injection h with h; subst h
                unfold Paid
                dsimp only
                have : requests (.stage n :: c.trace) = requests c.trace := rfl
                rw [this]
                omega
    | packet =>
      dsimp only at h
      unfold clientPacket at h
      have hu : ∀ us : List NALUnit, requests ((us.map Act.unit).reverse) = 0 := by
        intro us
        unfold requests
        rw [List.length_eq_zero_iff, List.filter_eq_nil_iff]
        intro a ha
        rw [List.mem_reverse, List.mem_map] at ha
        obtain ⟨u, _, rfl⟩ := ha
        exact Bool.false_ne_true
      split at h
      · injection h with h; subst h; exact hi
      · dsimp only at h
        split at h
        · split at h
          · cases h
          · injection h with h; subst h; exact hi
          · split at h
            · cases h
            · injection h with h; subst h; exact hi
            · injection h with h; subst h
              unfold Paid at hi ⊢
              dsimp only at hi ⊢
              rw [requests_append, hu, Nat.zero_add]
              exact hi
        · split at h
          · cases h
          · injection h with h; subst h; exact hi
          · injection h with h; subst h; exact hi

theorem paid_steps {w : World} {k : Nat} (es : List CEv) : ∀ {c c' : Client}, CInv w c → Paid k c → csteps w c es = .ok c' → Paid k c' := by
  induction es with
  | nil => intro c c' _ hi h; injection h with h; subst h; exact hi
  | cons e es ih =>
    intro c c' hc hi h
    unfold csteps at h
    cases hs : cstep w c e with
    | error p => rw [hs] at h; cases h
    | ok d => rw [hs] at h; exact ih (cstep_inv hc hs) (paid_step hi (plain_static hc.reach).1 hs) h

theorem paid_open {w : World} {uri : Bytes} {user : Option (Bytes × Bytes)} {rdr : Rdr} {n : Nat} {c : Client} (ho : clientEarly w uri user rdr n = .ok c) :
    Paid (10 + undelivered rdr) c := by
  have turn : ∀ (n : Nat) (c c' : Client), Paid (undelivered rdr) c → c.sess.opened = true → clientEarly.turns w n c = .ok c' →
      Paid (undelivered rdr) c' ∧ c'.sess.opened = true := by
    intro n
    induction n with
    | zero => intro c c' h1 h2 h; injection h with h; subst h; exact ⟨h1, h2⟩
    | succ n ih =>
      intro c c' h1 h2 h
      rw [clientEarly.turns] at h
      cases hr : clientRead w c with
      | error p => rw [hr] at h; cases h
      | ok d =>
        rw [hr] at h
        exact ih d c' (paid_read h1 hr) (read_opened h2 hr) h
  unfold clientEarly at ho
  cases ht : clientEarly.turns w n { rdr, sess := { newSession with opened := true, baseURI := uri, proto := .tcp, user := user } } with
  | error p => rw [ht] at ho; cases ho
  | ok d =>
    rw [ht] at ho
    obtain ⟨h1, h2⟩ := turn n _ d (by show 10 * 0 + undelivered rdr ≤ _; omega) rfl ht
    refine paid_order (c := d) ?_ h2 ho
    unfold Paid at h1
    omega

/-- C120: whatever the server sends and whatever the schedule is, even if `process` reads before OPTIONS is sent, the client has sent OPTIONS
and at most one request for every ten bytes it has taken from the connection. -/
theorem C120_requests (w : World) (uri : Bytes) (user : Option (Bytes × Bytes)) (rdr : Rdr) (n : Nat) (c0 c : Client) (es : List CEv)
    (ho : clientEarly w uri user rdr n = .ok c0) (hs : csteps w c0 es = .ok c) :
    10 * requests c.trace + undelivered c.rdr ≤ 10 + undelivered rdr := by
  have : Paid (10 + undelivered rdr) c := paid_steps es (open_inv ho) (paid_open ho) hs
  unfold Paid at this
  omega

/-- C120, for a session with any transport and in any state: a response leads to at most one request, or one for every ten bytes of its body. -/
theorem C120_response (w : World) (s s' : Sess) (rsp : Response) (e : Option SErr) (h : step w s (.item (.response rsp)) = .ok (s', e)) :
    ∃ o, s'.out = o ++ s.out ∧ 10 * requests (o.map .wire) ≤ 10 + (rsp.body.getD []).length := by
  have h : handleItem w s (.response rsp) = .ok (s', e) := h
  have hsp := response_spent h
  obtain ⟨o, ho⟩ : ∃ o, s'.out = o ++ s.out := by
    cases response_effect h with
    | plain own ho hown hst hq hset => exact ⟨own ++ [.got rsp], by rw [ho]; simp⟩
    | retried req res ho hst hq hin => exact ⟨[.sent true req res, .got rsp], ho⟩
    | granted st v ho hst hv hc hq => exact ⟨[.notified st, .got rsp], ho⟩
    | ready sinks ho hst hq hin hall => exact ⟨[.started sinks, .notified 1, .got rsp], ho⟩
  refine ⟨o, ho, ?_⟩
  rw [ho, spent_append, spent_split o] at hsp
  omega

-- Six requests in the course of a session: OPTIONS, DESCRIBE, SETUP, PLAY, PAUSE and TEARDOWN.
example : ∃ c, ClientReachable demoWorld c ∧ requests c.trace = 6 :=
  demoClient_shows (frames := []) (es := demoPlay ++ demoStop) (by decide +kernel)

-- The ten cannot be replaced by eleven: three SETUP requests for a body of 29 bytes.
example : ∃ s s', run demoWorld newSession [demoOpen, demoGot 1 200 [] none] = .ok s ∧
    step demoWorld s (demoGot 2 200 [] (some b!"m=video x\nm=video x\nm=video x")) = .ok (s', none) ∧
    requests (s'.out.map .wire) = requests (s.out.map .wire) + 3 := ⟨_, _, rfl, rfl, by decide⟩

end Ouro
