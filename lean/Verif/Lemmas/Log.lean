import Verif.Model.Log
import Verif.Props.Secret
import Verif.Lemmas.Over
/-! # The log follows the client, and the client does not look at the credentials but to answer a challenge -/
namespace Ouro
open Spec

/-! ## The client of a logged run -/

theorem lsteps_client {ord : Orders} {w : World} (es : List CEv) : ∀ {l l' : Logged}, lsteps ord w l es = .ok l' → csteps w l.client es = .ok l'.client := by
  induction es with
  | nil => intro l l' h; cases h; rfl
  | cons e es ih =>
    intro l l' h
    rw [lsteps] at h
    unfold lstep at h
    rw [csteps]
    cases hc : cstep w l.client e with
    | error p => rw [hc] at h; cases h
    | ok c => rw [hc] at h; exact ih h

theorem lturns_client {ord : Orders} {w : World} (n : Nat) : ∀ {l l' : Logged}, lopen.turns ord w n l = .ok l' → clientEarly.turns w n l.client = .ok l'.client := by
  induction n with
  | zero => intro l l' h; cases h; rfl
  | succ n ih =>
    intro l l' h
    rw [lopen.turns] at h
    rw [clientEarly.turns]
    cases hc : clientRead w l.client with
    | error p => rw [hc] at h; cases h
    | ok c => rw [hc] at h; exact ih h

theorem lopen_client {ord : Orders} {w : World} {uri : Bytes} {user : Option (Bytes × Bytes)} {rdr : Rdr} {n : Nat} {l : Logged}
    (h : lopen ord w uri user rdr n = .ok l) : clientEarly w uri user rdr n = .ok l.client := by
  unfold lopen at h
  unfold clientEarly
  split at h
  · cases h
  · rename_i l1 h1
    have h1 := lturns_client n h1
    rw [h1]
    dsimp only
    cases hc : l1.client.order (Sess.options w l1.client.sess) with
    | error p => rw [hc] at h; cases h
    | ok c => rw [hc] at h; cases h; rfl

/-- The log says as much as the trace. -/
theorem csteps_log (ord : Orders) {w : World} (es : List CEv) : ∀ {l : Logged} {c : Client}, csteps w l.client es = .ok c → ∃ l', lsteps ord w l es = .ok l' ∧ l'.client = c := by
  induction es with
  | nil => intro l c h; cases h; exact ⟨l, rfl, rfl⟩
  | cons e es ih =>
    intro l c h
    rw [csteps] at h
    rw [lsteps]
    unfold lstep
    cases hc : cstep w l.client e with
    | error p => rw [hc] at h; cases h
    | ok c1 =>
      rw [hc] at h
      exact ih (l := l.follow ord c1) h

/-! ## Other credentials -/

/-- The client with other credentials. -/
def Client.withUser (u : Option (Bytes × Bytes)) (c : Client) : Client := { c with sess := c.sess.withUser u }

/-- The same with the log. -/
def Logged.withUser (u : Option (Bytes × Bytes)) (l : Logged) : Logged := { l with client := l.client.withUser u }

/-- The challenges in a trace do not tell the credentials apart. -/
def Alike (w : World) (uri : Bytes) (v u : Option (Bytes × Bytes)) (t : List Act) : Prop :=
  ∀ rsp, .wire (.got rsp) ∈ t → rsp.statusCode = 401 → SameAnswer w uri (rsp.header.get b!"WWW-Authenticate") v u

variable {w : World} {uri : Bytes} {u v : Option (Bytes × Bytes)}

theorem adopt_user (c : Client) (s : Sess) : (c.withUser u).adopt (s.withUser u) = (c.adopt s).withUser u := rfl

theorem order_user {c : Client} {r r' : Go (Sess × Option SErr)} (h : r' = withUserR u r) :
    (c.withUser u).order r' = (match c.order r with | .error p => .error p | .ok c => .ok (c.withUser u)) := by
  subst h
  cases r with
  | error p => rfl
  | ok r =>
    obtain ⟨s, e⟩ := r
    cases e with
    | none => rfl
    | some e => rfl

/-- What a step leaves as it is, and that the trace only grows. -/
structure GoesOn (c c' : Client) : Prop where
  uri : c'.sess.baseURI = c.sess.baseURI
  user : c'.sess.user = c.sess.user
  trace : ∃ new, c'.trace = new ++ c.trace

theorem GoesOn.refl (c : Client) : GoesOn c c := ⟨rfl, rfl, [], rfl⟩

theorem GoesOn.trans {a b c : Client} (h1 : GoesOn a b) (h2 : GoesOn b c) : GoesOn a c := by
  obtain ⟨n1, e1⟩ := h1.trace
  obtain ⟨n2, e2⟩ := h2.trace
  exact ⟨h2.uri.trans h1.uri, h2.user.trans h1.user, n2 ++ n1, by rw [e2, e1, List.append_assoc]⟩

theorem GoesOn.order {c c' : Client} {verb uri : Bytes} {hs : Header} (h : c.order (c.sess.deref (command w c.sess verb uri hs)) = .ok c') : GoesOn c c' := by
  unfold Client.order at h
  cases hd : c.sess.deref (command w c.sess verb uri hs) with
  | error p => rw [hd] at h; cases h
  | ok r =>
    obtain ⟨s, e⟩ := r
    have hst := command_static (deref_ok hd)
    rw [hd] at h
    cases e with
    | none => cases h; exact ⟨hst.2.2.1, hst.2.2.2, _, rfl⟩
    | some e => cases h; exact ⟨hst.2.2.1, hst.2.2.2, .ended .fatal :: (added c.sess s).map .wire, rfl⟩

theorem read_on {c c' : Client} (h : clientRead w c = .ok c') : GoesOn c c' := by
  unfold clientRead at h
  split at h
  · split at h
    · cases h; exact ⟨rfl, rfl, [], rfl⟩
    · cases h; exact ⟨rfl, rfl, [], rfl⟩
    · split at h
      · cases h
      · rename_i item r _ _ s e hi
        cases h
        have hst := step_static (op := .item item) (fun h => h) hi
        exact ⟨hst.2.2.1, hst.2.2.2, _, rfl⟩
  · cases h; exact .refl c

theorem cstep_on {c c' : Client} {e : CEv} (h : cstep w c e = .ok c') : GoesOn c c' := by
  unfold cstep at h
  split at h
  · cases h; exact .refl c
  · cases e with
    | read => exact read_on h
    | expire =>
      cases h
      split
      · exact ⟨rfl, rfl, [], rfl⟩
      · exact .refl c
    | timer =>
      dsimp only at h
      unfold clientTimer at h
      split at h
      · dsimp only at h
        have hm : GoesOn c { c with fired := false, trace := .timer :: c.trace } := ⟨rfl, rfl, [.timer], rfl⟩
        split at h
        · exact hm.trans (.order h)
        · split at h
          · exact hm.trans (.order h)
          · split at h
            · cases h; exact ⟨rfl, rfl, [.ended .finished, .timer], rfl⟩
            · cases h; exact hm
      · cases h; exact .refl c
    | stage =>
      dsimp only at h
      unfold clientStage at h
      split at h
      · cases h; exact .refl c
      · rename_i n ks hks
        dsimp only at h
        have hm : GoesOn c { c with states := ks, state := n, trace := .stage n :: c.trace } := ⟨rfl, rfl, [.stage n], rfl⟩
        split at h
        · exact hm.trans (.order h)
        · split at h
          · cases h; exact hm.trans ⟨rfl, rfl, [], rfl⟩
          · split at h
            · cases h; exact hm.trans ⟨rfl, rfl, [], rfl⟩
            · split at h
              · cases h; exact hm.trans ⟨rfl, rfl, [], rfl⟩
              · cases h; exact hm
    | packet =>
      obtain ⟨h1, new, h2, _⟩ := packet_sess h
      exact ⟨by rw [h1], by rw [h1], new, h2⟩

theorem csteps_on (es : List CEv) : ∀ {c c' : Client}, csteps w c es = .ok c' → GoesOn c c' := by
  induction es with
  | nil => intro c c' h; cases h; exact .refl c
  | cons e es ih =>
    intro c c' h
    rw [csteps] at h
    cases hc : cstep w c e with
    | error p => rw [hc] at h; cases h
    | ok c1 => rw [hc] at h; exact (cstep_on hc).trans (ih h)

theorem Alike.older {t t' : List Act} (h : Alike w uri v u t') (hs : ∃ new, t' = new ++ t) : Alike w uri v u t := by
  obtain ⟨new, rfl⟩ := hs
  exact fun rsp hm => h rsp (List.mem_append_right _ hm)

theorem read_user {c c' : Client} (hu : c.sess.baseURI = uri) (hv : c.sess.user = v) (h : clientRead w c = .ok c') (ha : Alike w uri v u c'.trace) :
    clientRead w (c.withUser u) = .ok (c'.withUser u) := by
  unfold clientRead at h ⊢
  rw [show (c.withUser u).running = c.running from rfl, show (c.withUser u).states = c.states from rfl, show (c.withUser u).data = c.data from rfl,
    show (c.withUser u).rdr = c.rdr from rfl, show (c.withUser u).sess = c.sess.withUser u from rfl]
  split at h
  · rename_i hg
    rw [if_pos hg]
    cases hr : recv c.rdr with
    | mk x r =>
      rw [hr] at h
      cases x with
      | error x =>
        cases x with
        | io x => cases x <;> (cases h; rfl)
        | malformed => cases h; rfl
        | invalidStatus => cases h; rfl
        | notSupported => cases h; rfl
      | ok item =>
        dsimp only at h ⊢
        cases hi : handleItem w c.sess item with
        | error p => rw [hi] at h; cases h
        | ok se =>
          obtain ⟨s, e⟩ := se
          rw [hi] at h
          cases h
          have := step_user (w := w) (u := u) c.sess (.item item) (fun h => h) (by
            intro rsp ho h401
            cases ho
            obtain ⟨o, h1⟩ : ∃ o, s.out = o ++ .got rsp :: c.sess.out := by
              cases response_effect hi with
              | plain own ho hown hst hq hset => exact ⟨own, ho⟩
              | retried req res ho hst hq hin => exact ⟨[.sent true req res], ho⟩
              | granted st v ho hst hv hc hq => exact ⟨[.notified st], ho⟩
              | ready sinks ho hst hq hin hall => exact ⟨[.started sinks, .notified 1], ho⟩
            rw [hu, hv]
            refine ha rsp ?_ h401
            rw [adopt_eq (c := { c with rdr := r, running := goesOn e }) (o := o ++ [.got rsp]) (by rw [h1]; simp)]
            simp)
          have this : handleItem w (c.sess.withUser u) item = withUserR u (handleItem w c.sess item) := this
          rw [this, hi]
          rfl
  · rename_i hg
    rw [if_neg hg]
    cases h; rfl

/-- A step of the client with other credentials. -/
theorem cstep_user {c c' : Client} {e : CEv} (hu : c.sess.baseURI = uri) (hv : c.sess.user = v) (h : cstep w c e = .ok c') (ha : Alike w uri v u c'.trace) :
    cstep w (c.withUser u) e = .ok (c'.withUser u) := by
  unfold cstep at h ⊢
  rw [show (c.withUser u).ended = c.ended from rfl]
  split at h
  · rename_i hg
    rw [if_pos hg]; cases h; rfl
  · rename_i hg
    rw [if_neg hg]
    cases e with
    | read => exact read_user hu hv h ha
    | expire =>
      cases h
      show pure (if c.armed then _ else _) = _
      cases c.armed <;> rfl
    | timer =>
      dsimp only at h ⊢
      unfold clientTimer at h ⊢
      rw [show (c.withUser u).fired = c.fired from rfl]
      have ho : ∀ verb, Client.order (Client.withUser u { c with fired := false, trace := .timer :: c.trace }) ((c.sess.withUser u).deref (command w (c.sess.withUser u) verb c.sess.baseURI [])) = _ :=
        fun verb => order_user (u := u) (c := { c with fired := false, trace := .timer :: c.trace }) (deref_user (command_user c.sess verb c.sess.baseURI []))
      split at h
      · rename_i hf
        rw [if_pos hf]
        dsimp only at h ⊢
        rw [show (c.withUser u).state = c.state from rfl]
        split at h
        · rename_i h1
          rw [if_pos h1]
          have h : Client.order { c with fired := false, trace := .timer :: c.trace } (c.sess.deref (command w c.sess verbPause c.sess.baseURI [])) = .ok c' := h
          refine (ho verbPause).trans ?_
          rw [h]
        · rename_i h1
          rw [if_neg h1]
          split at h
          · rename_i h2
            rw [if_pos h2]
            have h : Client.order { c with fired := false, trace := .timer :: c.trace } (c.sess.deref (command w c.sess verbTeardown c.sess.baseURI [])) = .ok c' := h
            refine (ho verbTeardown).trans ?_
            rw [h]
          · rename_i h2
            rw [if_neg h2]
            split at h
            · rename_i h3
              rw [if_pos h3]; cases h; rfl
            · rename_i h3
              rw [if_neg h3]; cases h; rfl
      · rename_i hf
        rw [if_neg hf]; cases h; rfl
    | stage =>
      dsimp only at h ⊢
      unfold clientStage at h ⊢
      rw [show (c.withUser u).states = c.states from rfl]
      cases hs : c.states with
      | nil => rw [hs] at h; cases h; rfl
      | cons k ks =>
        rw [hs] at h
        dsimp only at h ⊢
        split at h
        · rename_i h1
          rw [if_pos h1]
          have h : Client.order { c with states := ks, state := k, trace := .stage k :: c.trace } (c.sess.deref (command w c.sess verbPlay c.sess.baseURI [])) = .ok c' := h
          refine (order_user (u := u) (c := { c with states := ks, state := k, trace := .stage k :: c.trace }) (deref_user (command_user c.sess verbPlay c.sess.baseURI []))).trans ?_
          rw [h]
        · rename_i h1
          rw [if_neg h1]
          split at h
          · rename_i h2; rw [if_pos h2]; cases h; rfl
          · rename_i h2
            rw [if_neg h2]
            split at h
            · rename_i h3; rw [if_pos h3]; cases h; rfl
            · rename_i h3
              rw [if_neg h3]
              split at h
              · rename_i h4; rw [if_pos h4]; cases h; rfl
              · rename_i h4; rw [if_neg h4]; cases h; rfl
    | packet =>
      dsimp only at h ⊢
      unfold clientPacket at h ⊢
      rw [show (c.withUser u).data = c.data from rfl]
      cases hd : c.data with
      | nil => rw [hd] at h; cases h; rfl
      | cons x rest =>
        obtain ⟨ch, payload⟩ := x
        rw [hd] at h
        dsimp only at h ⊢
        split at h
        · rename_i h1
          rw [if_pos h1]
          split at h
          · cases h
          · cases h; rfl
          · rename_i p hr
            show (match push c.sink p.pl p.ts with | .error p => _ | .ok (some _, sink) => _ | .ok (none, sink) => _) = _
            split at h
            · cases h
            · rename_i hp; rw [hp]; cases h; rfl
            · rename_i hp; rw [hp]; cases h; rfl
        · rename_i h1
          rw [if_neg h1]
          split at h
          · cases h
          · cases h; rfl
          · cases h; rfl

theorem lsteps_user {ord : Orders} (es : List CEv) : ∀ {l l' : Logged}, l.client.sess.baseURI = uri → l.client.sess.user = v → lsteps ord w l es = .ok l' →
    Alike w uri v u l'.client.trace → lsteps ord w (l.withUser u) es = .ok (l'.withUser u) := by
  induction es with
  | nil => intro l l' _ _ h _; cases h; rfl
  | cons e es ih =>
    intro l l' hu hv h ha
    rw [lsteps] at h ⊢
    unfold lstep at h ⊢
    cases hc : cstep w l.client e with
    | error p => rw [hc] at h; cases h
    | ok c =>
      rw [hc] at h
      have h : lsteps ord w (l.follow ord c) es = .ok l' := h
      have hg := cstep_on hc
      have ho := (csteps_on es (lsteps_client es h)).trace
      have := cstep_user hu hv hc (ha.older (t := c.trace) ho)
      rw [show (l.withUser u).client = l.client.withUser u from rfl, this]
      exact ih (l := l.follow ord c) (hg.uri.trans hu) (hg.user.trans hv) h ha

theorem lturns_on {ord : Orders} (n : Nat) : ∀ {l l' : Logged}, lopen.turns ord w n l = .ok l' → GoesOn l.client l'.client := by
  induction n with
  | zero => intro l l' h; cases h; exact .refl _
  | succ n ih =>
    intro l l' h
    rw [lopen.turns] at h
    cases hc : clientRead w l.client with
    | error p => rw [hc] at h; cases h
    | ok c => rw [hc] at h; exact (read_on hc).trans (ih h)

theorem lturns_user {ord : Orders} (n : Nat) : ∀ {l l' : Logged}, l.client.sess.baseURI = uri → l.client.sess.user = v → lopen.turns ord w n l = .ok l' →
    Alike w uri v u l'.client.trace → lopen.turns ord w n (l.withUser u) = .ok (l'.withUser u) := by
  induction n with
  | zero => intro l l' _ _ h _; cases h; rfl
  | succ n ih =>
    intro l l' hu hv h ha
    rw [lopen.turns] at h ⊢
    cases hc : clientRead w l.client with
    | error p => rw [hc] at h; cases h
    | ok c =>
      rw [hc] at h
      have h : lopen.turns ord w n (l.follow ord c) = .ok l' := h
      have hg := read_on hc
      have := read_user hu hv hc (ha.older (t := c.trace) (lturns_on n h).trace)
      rw [show (l.withUser u).client = l.client.withUser u from rfl, this]
      exact ih (l := l.follow ord c) (hg.uri.trans hu) (hg.user.trans hv) h ha

theorem lopen_user {ord : Orders} {rdr : Rdr} {n : Nat} {l : Logged} (h : lopen ord w uri v rdr n = .ok l) (ha : Alike w uri v u l.client.trace) :
    lopen ord w uri u rdr n = .ok (l.withUser u) := by
  unfold lopen at h ⊢
  split at h
  · cases h
  · rename_i l1 h1
    cases hc : l1.client.order (Sess.options w l1.client.sess) with
    | error p => rw [hc] at h; cases h
    | ok c =>
      rw [hc] at h
      cases h
      have hg : GoesOn l1.client c := .order hc
      have := lturns_user n rfl rfl h1 (ha.older hg.trace)
      rw [show (⟨{ rdr, sess := { newSession with opened := true, baseURI := uri, proto := .tcp, user := u } }, []⟩ : Logged) =
        (⟨{ rdr, sess := { newSession with opened := true, baseURI := uri, proto := .tcp, user := v } }, []⟩ : Logged).withUser u from rfl, this]
      dsimp only
      have h2 := order_user (u := u) (c := l1.client) (deref_user (s := l1.client.sess) (command_user (w := w) (u := u) l1.client.sess verbOptions l1.client.sess.baseURI []))
      rw [show (l1.withUser u).client.order (Sess.options w (l1.withUser u).client.sess) = _ from h2]
      rw [show l1.client.order (l1.client.sess.deref (command w l1.client.sess verbOptions l1.client.sess.baseURI [])) = .ok c from hc]
      rfl

theorem lopen_static {ord : Orders} {rdr : Rdr} {n : Nat} {l : Logged} (h : lopen ord w uri v rdr n = .ok l) : l.client.sess.baseURI = uri ∧ l.client.sess.user = v := by
  unfold lopen at h
  split at h
  · cases h
  · rename_i l1 h1
    have h0 := lturns_on n h1
    cases hc : l1.client.order (Sess.options w l1.client.sess) with
    | error p => rw [hc] at h; cases h
    | ok c =>
      rw [hc] at h
      cases h
      have hg : GoesOn l1.client c := .order hc
      exact ⟨hg.uri.trans h0.uri, hg.user.trans h0.user⟩

end Ouro
