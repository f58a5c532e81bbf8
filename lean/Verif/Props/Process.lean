import Verif.Lemmas.Process
import Verif.Props.Main
/-! # C87, C88: keep-alive messages in time, the end of the reading goroutine -/
namespace Ouro
open Spec

/-! ## C87 -/

/-- C87: whatever is sent and called, keep-alive messages are at least two seconds apart. -/
theorem C87_spaced (w : World) (proto : Proto) (t : Nat) (p : Clocked) (h : ProcReachable w proto t p) :
    (keepAliveTimes p.log).Pairwise fun later earlier => earlier + 2000 ≤ later := (reachable_clock h).spaced

theorem turn_times {w : World} {proto : Proto} {t now now' t' : Nat} {p p' : Clocked} (h : ClockInv w proto t p) (hr : p.running = true) (h1 : t ≤ now) (h2 : now ≤ now') (h3 : now' ≤ t')
    (hs : procTurn w p now now' t' = .ok p') :
    keepAliveTimes p'.log = if ((proto = .unicast ∨ proto = .multicast) ∧ InUse p.log) ∧ ∀ x ∈ keepAliveTimes p.log, x + 2000 ≤ now then now' :: keepAliveTimes p.log
      else keepAliveTimes p.log := by
  unfold procTurn at hs
  rw [if_pos hr] at hs
  split at hs
  · cases hs
  · next q e hk =>
    obtain ⟨hq, _, _, hl⟩ := keepAlive_clock h h1 h2 hk
    have hp' : keepAliveTimes p'.log = keepAliveTimes q.log := by
      split at hs
      · injection hs with hs; subst hs; rfl
      · exact (receive_clock hq h3 hs).2
    rw [hp']
    split at hl
    · next hc =>
      rw [if_pos hc]
      obtain ⟨o, ho, hio⟩ := hl
      rw [ho]
      unfold keepAliveTimes
      rw [List.filter_cons_of_pos (by simpa using hio)]
      rfl
    · next hc => rw [if_neg hc, hl.1]

/-- C87: a turn of the reading goroutine sends a keep-alive exactly if the data comes over UDP, the session is in use, and none was sent in the last
two seconds. -/
theorem C87_exact (w : World) (proto : Proto) (t now now' t' : Nat) (p p' : Clocked) (h : ProcReachable w proto t p) (hr : p.running = true)
    (h1 : t ≤ now) (h2 : now ≤ now') (h3 : now' ≤ t') (hs : procTurn w p now now' t' = .ok p') :
    keepAliveTimes p'.log = if ((proto = .unicast ∨ proto = .multicast) ∧ InUse p.log) ∧ ∀ x ∈ keepAliveTimes p.log, x + 2000 ≤ now then now' :: keepAliveTimes p.log
      else keepAliveTimes p.log := turn_times (reachable_clock h) hr h1 h2 h3 hs

/-- C87: so while a session over UDP is in use, a turn leaves a keep-alive that is less than two seconds old. -/
theorem C87_recent (w : World) (proto : Proto) (t now now' t' : Nat) (p p' : Clocked) (h : ProcReachable w proto t p) (hr : p.running = true)
    (h1 : t ≤ now) (h2 : now ≤ now') (h3 : now' ≤ t') (hs : procTurn w p now now' t' = .ok p') (hp : proto = .unicast ∨ proto = .multicast) (hu : InUse p.log) :
    ∃ x ∈ keepAliveTimes p'.log, now < x + 2000 ∧ x ≤ now' := by
  have hk := C87_exact w proto t now now' t' p p' h hr h1 h2 h3 hs
  rw [hk]
  split
  · exact ⟨now', by simp, by omega, Nat.le_refl _⟩
  · next hc =>
    by_cases ha : ∀ x ∈ keepAliveTimes p.log, x + 2000 ≤ now
    · exact absurd ⟨⟨hp, hu⟩, ha⟩ hc
    · obtain ⟨x, hx⟩ := Classical.not_forall.1 ha
      obtain ⟨hm, hlt⟩ := Classical.not_imp.1 hx
      exact ⟨x, hm, by omega, by have := (reachable_clock h).past x hm; omega⟩

/-- C87: over TCP there are none. -/
theorem C87_tcp (w : World) (t : Nat) (p : Clocked) (h : ProcReachable w .tcp t p) : keepAliveTimes p.log = [] := by
  obtain ⟨t0, uri, user, rdr, p0, es, h1, h2, h3, _⟩ := h
  have h0 : keepAliveTimes p0.log = [] := by
    have hi := opened_clock h1
    unfold procOpen at h1
    split at h1
    · cases h1
    · next s e hs =>
      injection h1 with h1
      have hl := hi.last
      rw [← h1] at hl
      have hl : none = (keepAliveTimes (Clocked.adopt { sess := newSession, rdr } t0 s).log).head? := hl
      rw [← h1]
      exact List.head?_eq_none_iff.1 hl.symm
  have key : ∀ (es : List PEv) (t : Nat) (q : Clocked), ClockInv w .tcp t q → keepAliveTimes q.log = [] → Ticks t es → psteps w q es = .ok p → keepAliveTimes p.log = [] := by
    intro es
    induction es with
    | nil => intro t q _ hq _ hs; injection hs with hs; subst hs; exact hq
    | cons e es ih =>
      intro t q hi hq ht hs
      unfold psteps at hs
      cases hp : pstep w q e with
      | error x => rw [hp] at hs; cases hs
      | ok q' =>
        rw [hp] at hs
        cases e with
        | turn a b c =>
          refine ih c q' (turn_clock hi ht.1 ht.2.1 ht.2.2.1 hp) ?_ ht.2.2.2 hs
          cases hr : q.running with
          | true =>
            rw [turn_times hi hr ht.1 ht.2.1 ht.2.2.1 hp, if_neg (fun hc => by rcases hc.1.1 with h | h <;> cases h)]
            exact hq
          | false =>
            have hp : procTurn w q a b c = .ok q' := hp
            unfold procTurn at hp
            rw [hr] at hp
            injection hp with hp; subst hp; exact hq
        | call k a =>
          refine ih a q' (call_clock hi ht.1 hp) ?_ ht.2 hs
          unfold pstep at hp
          dsimp only at hp
          split at hp
          · cases hp
          · next s e hc =>
            injection hp with hp; subst hp
            obtain ⟨_, _, x, hx, hn⟩ := steady_call hc
            show keepAliveTimes ((added q.sess s).map (fun o => (a, o)) ++ q.log) = _
            rw [added_of hx, keepAliveTimes_append, keepAliveTimes_none hn, hq]; rfl
  exact key es t0 p0 (opened_clock h1) h0 h2 h3

/-- A session over UDP: OPTIONS, DESCRIBE and SETUP are granted, then deadlines expire. -/
def demoQuiet : Rdr := ⟨[], none,
  (b!"RTSP/1.0 200 OK\r\nCSeq: 1\r\n\r\nRTSP/1.0 200 OK\r\nCSeq: 2\r\nContent-Length: 35\r\n\r\nm=video 0 RTP/AVP 96\r\na=control:v\r\nRTSP/1.0 200 OK\r\nCSeq: 3\r\nSession: 9\r\n\r\n").map Ev.byte ++
    [.timeout, .timeout, .timeout]⟩

/-- The session from 0 on, with these events. -/
def demoClock (w : World) (proto : Proto) (rdr : Rdr) (es : List PEv) : Option Clocked :=
  match procOpen w 0 b!"rtsp://h/x" proto none rdr with
  | .ok p => (psteps w p es).toOption
  | .error _ => none

/-- A turn every two seconds at most: keep-alives at 1.0, 3.0 and not at 4.9 seconds; PLAY is called in between. -/
example : (demoClock demoWorld .unicast demoQuiet [.turn 10 10 20, .turn 20 21 30, .turn 30 30 990, .turn 1000 1001 3000, .call .play 3000, .turn 3001 3002 4900, .turn 4950 4950 5000]).map
    (fun p => (keepAliveTimes p.log, p.running)) = some ([3002, 1001], true) := by decide +kernel

/-! ## C88 -/

/-- C88: the only thing that ends the reading goroutine is that reading fails; it ends then. -/
theorem C88_reading_partial (w : World) (p p' : Clocked) (now now' t : Nat) (hr : p.running = true) (hs : procTurn w p now now' t = .ok p') :
    ∃ q e, procKeepAlive w p now now' = .ok (q, e) ∧ (p'.running = false ↔ ReadingFails w q.sess p.rdr) := by
  unfold procTurn at hs
  rw [if_pos hr] at hs
  split at hs
  · cases hs
  · next q e hk =>
    refine ⟨q, e, hk, ?_⟩
    have hq : q.rdr = p.rdr ∧ q.running = true ∧ ¬ (e ≠ none ∧ q.sess.stage = stageDone) := by
      unfold procKeepAlive at hk
      split at hk
      · next hc =>
        cases ha : p.sess.keepAlive w true with
        | error x => rw [ha] at hk; cases hk
        | ok r =>
          obtain ⟨s, e'⟩ := r
          rw [ha] at hk
          injection hk with hk; injection hk with hk _
          subst hk
          refine ⟨rfl, hr, fun h => ?_⟩
          have hu := (Bool.and_eq_true _ _ ▸ hc : _ ∧ _).1
          unfold Sess.inUse at hu
          rw [decide_eq_true_eq] at hu
          have ha := deref_ok ha
          rw [if_pos ⟨hu.1, hu.2.1, hu.2.2.1, hu.2.2.2, rfl⟩] at ha
          have : s.stage = p.sess.stage := (stageNow_sends ha).1
          have h2 : s.stage = stageDone := h.2
          have := hu.2.2.2
          omega
      · injection hk with hk; injection hk with hk he
        subst hk
        exact ⟨rfl, hr, fun h => h.1 he.symm⟩
    rw [if_neg hq.2.2] at hs
    unfold procReceive at hs
    unfold ReadingFails
    rw [hq.1] at hs
    revert hs
    rcases recv p.rdr with ⟨x | item, r⟩ <;> intro hs
    · dsimp only
      rcases x with x | _ | _ | _
      · cases x <;> (injection hs with hs; subst hs; simp [hq.2.1])
      all_goals (injection hs with hs; subst hs; simp)
    · dsimp only at hs ⊢
      cases hi : handleItem w q.sess item with
      | error x => rw [hi] at hs; cases hs
      | ok se =>
        obtain ⟨s, e'⟩ := se
        rw [hi] at hs
        injection hs with hs; subst hs
        show goesOn e' = false ↔ _
        constructor
        · intro hg
          cases e' with
          | none => cases hg
          | some x =>
            refine ⟨s, x, rfl, fun hx => ?_, fun hx => ?_⟩ <;> (rw [hx] at hg; cases hg)
        · rintro ⟨s', x, h1, h2⟩
          injection h1 with h1; injection h1 with _ h1
          rw [h1]
          cases x with
          | write b => cases b with
            | true => exact absurd rfl h2.1
            | false => rfl
          | listen b => cases b with
            | true => exact absurd rfl h2.2
            | false => rfl
          | _ => rfl

/-- C88 fails when the session is done: with a silent server the goroutine goes on for ever, whatever the clock says. -/
theorem C88_done_refuted (w : World) (p : Clocked) (hr : p.running = true) (hd : p.sess.stage = stageDone) (hb : p.rdr.buf = []) (he : p.rdr.err = none) (n : Nat)
    (hn : p.rdr.net = List.replicate n .timeout) (ts : List (Nat × Nat × Nat)) (hts : ts.length ≤ n) :
    ∃ p', psteps w p (ts.map fun x => .turn x.1 x.2.1 x.2.2) = .ok p' ∧ p'.running = true ∧ p'.sess = p.sess := by
  induction ts generalizing p n with
  | nil => exact ⟨p, rfl, hr, rfl⟩
  | cons x ts ih =>
    cases n with
    | zero => cases hts
    | succ n =>
      obtain ⟨sess, ⟨buf, err, net⟩, last, running, log⟩ := p
      dsimp only at hr hd hb he hn
      subst hr hb he hn
      have hturn : procTurn w ⟨sess, ⟨[], none, List.replicate (n + 1) .timeout⟩, last, true, log⟩ x.1 x.2.1 x.2.2 = .ok ⟨sess, ⟨[], none, List.replicate n .timeout⟩, last, true, log⟩ := by
        unfold procTurn procKeepAlive
        have hu : sess.inUse = false := by
          unfold Sess.inUse
          rw [decide_eq_false_iff_not]
          rintro ⟨_, _, _, h⟩
          omega
        rw [if_pos rfl]
        dsimp only
        rw [hu]
        rfl
      rw [List.map_cons]
      unfold psteps pstep
      dsimp only
      rw [hturn]
      exact ih ⟨sess, ⟨[], none, List.replicate n .timeout⟩, last, true, log⟩ rfl hd rfl rfl n rfl (by simpa using hts)

/-- Writing fails from the fifth request on. -/
def demoBroken : World := { demoWorld with write := fun o _ => if 4 ≤ (newSeqs o).length then .failed else .ok }

/-- C88 fails when a keep-alive cannot be sent: the goroutine goes on, and nobody is told. -/
theorem C88_keepAlive_refuted : (demoClock demoBroken .unicast demoQuiet [.turn 0 0 0, .turn 0 0 0, .turn 0 0 0, .turn 1000 1000 3000, .turn 3000 3000 5000]).map
    (fun p => (keepAliveTimes p.log, p.running, p.log.head?.map (fun x => (x.1, match x.2 with | .sent _ q res => (q.verb == b!"OPTIONS", res == .failed) | _ => (false, false))))) =
      some ([3000, 1000], true, some (3000, true, true)) := by decide +kernel

/-- TEARDOWN is granted, and the deadline expires. -/
def demoGone : Rdr := ⟨[], none, demoQuiet.net.take (demoQuiet.net.length - 3) ++ (b!"RTSP/1.0 200 OK\r\nCSeq: 4\r\n\r\n").map Ev.byte ++ List.replicate 2 .timeout⟩

example : (demoClock demoWorld .tcp demoGone [.turn 0 0 0, .turn 0 0 0, .turn 0 0 0, .call .teardown 5, .turn 7 7 9]).map
    (fun p => (p.sess.stage == stageDone && p.running && p.rdr.buf.isEmpty && p.rdr.err.isNone && p.rdr.net == List.replicate 2 .timeout)) = some true := by decide +kernel

end Ouro
