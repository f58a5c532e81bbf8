import Verif.Spec.Unusable
import Verif.Props.Malformed
import Verif.Props.Crash
import Verif.Props.Deadlock
/-! # C111: a message that cannot be used -/
namespace Ouro
open Spec

theorem command_works {w : World} (hw : ∀ o b, w.write o b = .ok) {s s' : Sess} {verb uri : Bytes} {hs : Header} {e : Option SErr} (ho : s.opened = true)
    (h : command w s verb uri hs = .ok (s', e)) : e = none ∧ s'.opened = true := by
  rcases command_out h with ⟨hf, _⟩ | ⟨_, hp, a, x, res, hs', _⟩
  · rw [ho] at hf; cases hf
  · obtain ⟨t, ht⟩ := command_ok hw ho hp verb uri hs
    rw [h] at ht
    injection ht with ht; injection ht with _ ht
    exact ⟨ht, by rw [hs']; exact ho⟩

theorem setupLoop_works {w : World} (hw : ∀ o b, w.write o b = .ok) (fs : List Feed) : ∀ {done : List Feed} {s s' : Sess} {e : Option SErr}, s.opened = true →
    setupLoop w done fs s = .ok (s', e) → e = none := by
  induction fs with
  | nil => intro done s s' e _ h; injection h with h; injection h with _ h; exact h.symm
  | cons f fs ih =>
    intro done s s' e ho h
    unfold setupLoop at h
    split at h
    · cases h
    · next hc => obtain ⟨h, _⟩ := command_works hw ho hc; cases h
    · next t hc => refine ih ?_ h; exact (command_works hw ho hc).2

theorem addSink_works {w : World} (hl : ∀ o k p, w.listen o k p = .ok) (s : Sess) (ch : UInt8) (port : Int) : ∃ s', addSink w s ch port = (s', none) := by
  unfold addSink
  rw [hl]
  exact ⟨_, rfl⟩

theorem setupAnswer_iff {w : World} (hl : ∀ o k p, w.listen o k p = .ok) {rsp : Response} (fs : List Feed) : ∀ {done : List Feed} {s s' : Sess} {e : Option SErr},
    setupAnswer w rsp done fs s = .ok (s', e) →
    (e = none ↔ ∀ f ∈ fs, f.cseq = rsp.cseq → ∃ f', f.transportSetup w.inf (rsp.header.get b!"Transport") = .ok (f', none)) := by
  induction fs with
  | nil => intro done s s' e h; injection h with h; injection h with _ h; subst h; simp
  | cons f fs ih =>
    intro done s s' e h
    unfold setupAnswer at h
    by_cases hc : f.cseq = rsp.cseq
    · rw [if_pos hc] at h
      cases ht : f.transportSetup w.inf (rsp.header.get b!"Transport") with
      | error p => rw [ht] at h; cases h
      | ok r =>
        obtain ⟨f', x⟩ := r
        rw [ht] at h
        dsimp only at h
        cases x with
        | some x =>
          injection h with h; injection h with _ h; subst h
          refine ⟨fun h => by (cases h), fun h => ?_⟩
          obtain ⟨f2, h2⟩ := h f (by simp) hc
          rw [ht] at h2; injection h2 with h2; injection h2 with _ h2; cases h2
        | none =>
          have conv : (∀ g ∈ f :: fs, g.cseq = rsp.cseq → ∃ f', g.transportSetup w.inf (rsp.header.get b!"Transport") = .ok (f', none)) ↔
              ∀ g ∈ fs, g.cseq = rsp.cseq → ∃ f', g.transportSetup w.inf (rsp.header.get b!"Transport") = .ok (f', none) := by
            refine ⟨fun h g hg => h g (by simp [hg]), fun h g hg hgc => ?_⟩
            rcases List.mem_cons.1 hg with rfl | hg
            · exact ⟨f', ht⟩
            · exact h g hg hgc
          rw [conv]
          dsimp only at h
          split at h
          · exact ih h
          · obtain ⟨s1, h1⟩ := addSink_works hl { s with feedidx := s.feedidx + 1, feeds := done ++ f' :: fs } (UInt8.ofNat (s.feedidx + 1) * 2) f'.transp.port.one
            rw [h1] at h
            dsimp only at h
            obtain ⟨s2, h2⟩ := addSink_works hl s1 (UInt8.ofNat (s.feedidx + 1) * 2 + 1) f'.transp.port.two
            rw [h2] at h
            exact ih h
    · rw [if_neg hc] at h
      rw [ih h]
      refine ⟨fun h g hg hgc => ?_, fun h g hg => h g (by simp [hg])⟩
      rcases List.mem_cons.1 hg with rfl | hg
      · exact absurd hgc hc
      · exact h g hg hgc

/-- C111, exactly: if writing and listening work, there is an error after a response exactly if the session cannot use it. -/
theorem C111_usable_iff (w : World) (hw : ∀ o b, w.write o b = .ok) (hl : ∀ o k p, w.listen o k p = .ok) (s s' : Sess) (hr : Reachable w s) (ho : s.opened = true)
    (rsp : Response) (e : Option SErr) (h : step w s (.item (.response rsp)) = .ok (s', e)) : e = none ↔ Usable w s rsp := by
  have h : handleRtsp w { s with out := .got rsp :: s.out } rsp = .ok (s', e) := h
  unfold handleRtsp at h
  have hfind := (inv_reachable hr).find rsp.cseq
  cases hf : s.find rsp.cseq with
  | none =>
    rw [show ({ s with out := .got rsp :: s.out } : Sess).find rsp.cseq = none from hf] at h
    injection h with h; injection h with _ h; subst h
    refine ⟨fun h => by (cases h), fun ⟨req, hp, _⟩ => ?_⟩
    rw [← hfind, hf] at hp; cases hp
  | some req =>
    have hp : pending rsp.cseq s.out = some req := by rw [← hfind]; exact hf
    have conv : Usable w s rsp ↔ (rsp.statusCode = 401 → (∃ d, newDigest s.baseURI (rsp.header.get b!"WWW-Authenticate") = .ok d) ∧ s.user ≠ none) ∧
        (rsp.statusCode = 200 → req.verb = b!"SETUP" → ∀ f ∈ s.feeds, f.cseq = rsp.cseq → ∃ f', f.transportSetup w.inf (rsp.header.get b!"Transport") = .ok (f', none)) := by
      constructor
      · rintro ⟨r, h1, h2⟩
        rw [hp] at h1; injection h1 with h1; subst h1; exact h2
      · exact fun h => ⟨req, hp, h⟩
    rw [conv]
    rw [show ({ s with out := .got rsp :: s.out } : Sess).find rsp.cseq = some req from hf] at h
    dsimp only at h
    by_cases h401 : rsp.statusCode = 401
    · rw [if_pos h401] at h
      have hb : (({ s with out := .got rsp :: s.out } : Sess).remove rsp.cseq).baseURI = s.baseURI ∧ (({ s with out := .got rsp :: s.out } : Sess).remove rsp.cseq).user = s.user := ⟨rfl, rfl⟩
      generalize ({ s with out := .got rsp :: s.out } : Sess).remove rsp.cseq = v at h hb
      unfold retry authorize at h
      rw [hb.1] at h
      cases hd : newDigest s.baseURI (rsp.header.get b!"WWW-Authenticate") with
      | error x =>
        rw [hd] at h
        injection h with h; injection h with _ h; subst h
        refine ⟨fun h => by (cases h), fun h => ?_⟩
        obtain ⟨⟨d, h⟩, _⟩ := h.1 h401
        cases h
      | ok d =>
        rw [hd] at h
        dsimp only at h
        rw [hb.2] at h
        cases hu : s.user with
        | none =>
          rw [hu] at h
          injection h with h; injection h with _ h; subst h
          exact ⟨fun h => by (cases h), fun h => absurd rfl (h.1 h401).2⟩
        | some up =>
          obtain ⟨u, p⟩ := up
          rw [hu] at h
          dsimp only at h
          refine ⟨fun _ => ⟨fun _ => ⟨⟨d, rfl⟩, by simp⟩, fun h => by rw [h401] at h; cases h⟩, fun _ => ?_⟩
          split at h
          · cases h
          · next heq => split at heq; cases heq; injection heq with heq; injection heq with _ heq; cases heq
          · split at h
            · cases h
            · unfold enqueue writeReq at h
              split at h
              · cases h
              · rw [hw] at h
                injection h with h; injection h with _ h; exact h.symm
    · rw [if_neg h401, learnSession_eq] at h
      have hv : (({ s with out := .got rsp :: s.out } : Sess).remove rsp.cseq).opened = true ∧ (({ s with out := .got rsp :: s.out } : Sess).remove rsp.cseq).feeds = s.feeds := ⟨ho, rfl⟩
      generalize ({ s with out := .got rsp :: s.out } : Sess).remove rsp.cseq = v at h hv
      have triv : (rsp.statusCode = 401 → (∃ d, newDigest s.baseURI (rsp.header.get b!"WWW-Authenticate") = .ok d) ∧ s.user ≠ none) := fun h => absurd h h401
      by_cases hset : req.verb = verbSetup
      · rw [hset] at h ⊢
        unfold answer at h
        rw [if_neg (by decide), if_neg (by decide), if_neg (by decide), if_neg (by decide), if_neg (by decide), if_pos rfl] at h
        unfold handleSetup at h
        by_cases h200 : rsp.statusCode = 200
        · rw [if_pos h200] at h
          have key : e = none ↔ ∀ f ∈ v.feeds, f.cseq = rsp.cseq → ∃ f', f.transportSetup w.inf (rsp.header.get b!"Transport") = .ok (f', none) := by
            split at h
            · cases h
            · next hx =>
              injection h with h; injection h with _ h; subst h
              exact setupAnswer_iff hl _ hx
            · next hx =>
              injection h with h; injection h with _ h; subst h
              exact setupAnswer_iff hl _ hx
          rw [key, hv.2]
          exact ⟨fun h => ⟨triv, fun _ _ => h⟩, fun h => h.2 h200 rfl⟩
        · rw [if_neg h200, if_pos h401] at h
          injection h with h; injection h with _ h
          exact ⟨fun _ => ⟨triv, fun h => absurd h h200⟩, fun _ => h.symm⟩
      · refine ⟨fun _ => ⟨triv, fun _ h => absurd h hset⟩, fun _ => ?_⟩
        unfold answer at h
        split at h
        · split at h
          · refine (command_works hw ?_ (deref_ok h)).1; exact hv.1
          · injection h with h; injection h with _ h; exact h.symm
        · split at h
          · split at h
            · split at h
              · cases h
              · refine setupLoop_works hw _ ?_ h; exact hv.1
            · injection h with h; injection h with _ h; exact h.symm
          · split at h
            · injection h with h; injection h with _ h; exact h.symm
            · split at h
              · injection h with h; injection h with _ h; exact h.symm
              · split at h
                · injection h with h; injection h with _ h; exact h.symm
                · injection h with h; injection h with _ h; exact h.symm

theorem setupAnswer_ends {w : World} (hl : ∀ o k p, w.listen o k p = .ok) {rsp : Response} (fs : List Feed) : ∀ {done : List Feed} {s s' : Sess} {e : SErr},
    setupAnswer w rsp done fs s = .ok (s', some e) → goesOn (some e) = false := by
  induction fs with
  | nil => intro done s s' e h; injection h with h; injection h with _ h; cases h
  | cons f fs ih =>
    intro done s s' e h
    unfold setupAnswer at h
    split at h
    · split at h
      · cases h
      · next f' x _ =>
        cases x with
        | some x => injection h with h; injection h with _ h; injection h with h; subst h; rfl
        | none =>
          dsimp only at h
          split at h
          · exact ih h
          · obtain ⟨s1, h1⟩ := addSink_works hl { s with feedidx := s.feedidx + 1, feeds := done ++ f' :: fs } (UInt8.ofNat (s.feedidx + 1) * 2) f'.transp.port.one
            rw [h1] at h
            dsimp only at h
            obtain ⟨s2, h2⟩ := addSink_works hl s1 (UInt8.ofNat (s.feedidx + 1) * 2 + 1) f'.transp.port.two
            rw [h2] at h
            exact ih h
    · exact ih h

/-- If writing and listening work, any error after a response ends the reading. -/
theorem response_ends {w : World} (hw : ∀ o b, w.write o b = .ok) (hl : ∀ o k p, w.listen o k p = .ok) {s s' : Sess} (ho : s.opened = true)
    {rsp : Response} {e : SErr} (h : step w s (.item (.response rsp)) = .ok (s', some e)) : goesOn (some e) = false := by
  have h : handleRtsp w { s with out := .got rsp :: s.out } rsp = .ok (s', some e) := h
  unfold handleRtsp at h
  have hv : (({ s with out := .got rsp :: s.out } : Sess).remove rsp.cseq).opened = true := ho
  generalize ({ s with out := .got rsp :: s.out } : Sess).remove rsp.cseq = v at h hv
  split at h
  · injection h with h; injection h with _ h; injection h with h; subst h; rfl
  · split at h
    · unfold retry authorize at h
      split at h
      · cases h
      · next heq =>
        injection h with h; injection h with _ h; injection h with h; subst h
        split at heq
        · injection heq with heq; injection heq with _ heq; injection heq with heq; subst heq; rfl
        · split at heq
          · injection heq with heq; injection heq with _ heq; injection heq with heq; subst heq; rfl
          · split at heq
            · cases heq
            · injection heq with heq; injection heq with _ heq; cases heq
      · split at h
        · cases h
        · unfold enqueue writeReq at h
          split at h
          split at h
          · cases h
          · rw [hw] at h
            injection h with h; injection h with _ h; cases h
    · rw [learnSession_eq] at h
      unfold answer at h
      split at h
      · split at h
        · have := (command_works hw (by exact hv) (deref_ok h)).1; cases this
        · injection h with h; injection h with _ h; cases h
      · split at h
        · split at h
          · split at h
            · cases h
            · have := setupLoop_works hw _ (by exact hv) h; cases this
          · injection h with h; injection h with _ h; cases h
        · split at h
          · injection h with h; injection h with _ h; cases h
          · split at h
            · injection h with h; injection h with _ h; cases h
            · split at h
              · injection h with h; injection h with _ h; cases h
              · split at h
                · unfold handleSetup at h
                  split at h
                  · split at h
                    · cases h
                    · next hx => 
                      injection h with h; injection h with _ h; injection h with h; subst h
                      exact setupAnswer_ends hl _ hx
                    · injection h with h; injection h with _ h; cases h
                  · injection h with h; injection h with _ h; cases h
                · injection h with h; injection h with _ h; cases h

/-! ## The client -/

/-- Once reading has ended it has ended for good, and nothing more is read. -/
theorem stopped_step {w : World} {c c' : Client} {e : CEv} (hr : c.running = false) (h : cstep w c e = .ok c') : c'.running = false ∧ c'.rdr = c.rdr := by
  have order : ∀ {d d' : Client} {r : Go (Sess × Option SErr)}, d.order r = .ok d' → d'.running = d.running ∧ d'.rdr = d.rdr := by
    intro d d' r h
    unfold Client.order at h
    split at h
    · cases h
    · injection h with h; subst h; exact ⟨rfl, rfl⟩
    · injection h with h; subst h; exact ⟨rfl, rfl⟩
  unfold cstep at h
  split at h
  · injection h with h; subst h; exact ⟨hr, rfl⟩
  · cases e with
    | read =>
      have h : clientRead w c = .ok c' := h
      unfold clientRead at h
      rw [if_neg (by rw [hr]; simp)] at h
      injection h with h; subst h; exact ⟨hr, rfl⟩
    | expire =>
      injection h with h; subst h
      split
      · exact ⟨hr, rfl⟩
      · exact ⟨hr, rfl⟩
    | timer =>
      have h : clientTimer w c = .ok c' := h
      unfold clientTimer at h
      split at h
      · dsimp only at h
        split at h
        · obtain ⟨a, b⟩ := order h; exact ⟨a.trans hr, b⟩
        · split at h
          · obtain ⟨a, b⟩ := order h; exact ⟨a.trans hr, b⟩
          · split at h
            · injection h with h; subst h; exact ⟨hr, rfl⟩
            · injection h with h; subst h; exact ⟨hr, rfl⟩
      · injection h with h; subst h; exact ⟨hr, rfl⟩
    | stage =>
      have h : clientStage w c = .ok c' := h
      unfold clientStage at h
      split at h
      · injection h with h; subst h; exact ⟨hr, rfl⟩
      · dsimp only at h
        split at h
        · obtain ⟨a, b⟩ := order h; exact ⟨a.trans hr, b⟩
        · split at h
          · injection h with h; subst h; exact ⟨hr, rfl⟩
          · split at h
            · injection h with h; subst h; exact ⟨hr, rfl⟩
            · split at h
              · injection h with h; subst h; exact ⟨hr, rfl⟩
              · injection h with h; subst h; exact ⟨hr, rfl⟩
    | packet =>
      have h : clientPacket c = .ok c' := h
      unfold clientPacket at h
      split at h
      · injection h with h; subst h; exact ⟨hr, rfl⟩
      · dsimp only at h
        split at h
        · split at h
          · cases h
          · injection h with h; subst h; exact ⟨hr, rfl⟩
          · split at h
            · cases h
            · injection h with h; subst h; exact ⟨hr, rfl⟩
            · injection h with h; subst h; exact ⟨hr, rfl⟩
        · split at h
          · cases h
          · injection h with h; subst h; exact ⟨hr, rfl⟩
          · injection h with h; subst h; exact ⟨hr, rfl⟩

theorem stopped_steps {w : World} (es : List CEv) : ∀ {c c' : Client}, c.running = false → csteps w c es = .ok c' → c'.running = false ∧ c'.rdr = c.rdr := by
  induction es with
  | nil => intro c c' hr h; injection h with h; subst h; exact ⟨hr, rfl⟩
  | cons e es ih =>
    intro c c' hr h
    unfold csteps at h
    split at h
    · cases h
    · next d hd =>
      obtain ⟨h1, h2⟩ := stopped_step hr hd
      obtain ⟨h3, h4⟩ := ih h1 h
      exact ⟨h3, h4.trans h2⟩

/-- C111 fails for the server's own requests: whatever the method (other than the version, and not beginning with a dollar sign) and whatever follows, the client
reads the first line and then nothing any more, whatever it does. -/
theorem C111_request_refuted (w : World) (c : Client) (hne : c.ended = false) (hrun : c.running = true) (hs : c.states = []) (hd : c.data.length ≤ 20) (he : c.rdr.err = none)
    (verb uri : Bytes) (hv : verb ≠ b!"RTSP/1.0") (hv0 : verb ≠ []) (hv1 : verb.head? ≠ some 36) (hv2 : (32 : UInt8) ∉ verb) (hv3 : (10 : UInt8) ∉ verb) (hu : (10 : UInt8) ∉ uri)
    (rest : List Ev) (hr : c.rdr.evs = (verb ++ b!" " ++ uri ++ b!" RTSP/1.0\r\n").map .byte ++ rest) (es : List CEv) :
    ∃ c', csteps w c [.read] = .ok c' ∧ c'.running = false ∧ c'.rdr.evs = rest ∧ c'.sess = c.sess ∧ ∀ c'', csteps w c' es = .ok c'' → c''.running = false ∧ c''.rdr.evs = rest := by
  obtain ⟨x, xs, rfl⟩ : ∃ x xs, verb = x :: xs := by
    cases verb with
    | nil => exact absurd rfl hv0
    | cons x xs => exact ⟨x, xs, rfl⟩
  have hx : x ≠ 36 := fun e => hv1 (by rw [e]; rfl)
  obtain ⟨r1, p1, p2, p3, _⟩ := peek_ok (r := c.rdr) (n := 1) he hr (by simp) (by decide)
  have hline : ((x :: xs) ++ b!" " ++ uri ++ b!" RTSP/1.0\r\n") = ((x :: xs) ++ b!" " ++ uri ++ b!" RTSP/1.0\r") ++ [10] := by simp
  have hnl : (10 : UInt8) ∉ ((x :: xs) ++ b!" " ++ uri ++ b!" RTSP/1.0\r") := by
    intro hm
    rcases List.mem_append.1 hm with hm | hm
    · rcases List.mem_append.1 hm with hm | hm
      · rcases List.mem_append.1 hm with hm | hm
        · exact hv3 hm
        · exact absurd (List.mem_singleton.1 hm) (by decide)
      · exact hu hm
    · exact absurd hm (by decide)
  have hbad : ¬ ∃ n, StatusText (fun c => ThreeDigits c n ∨ SignedCode c n) ((x :: xs) ++ b!" " ++ uri ++ b!" RTSP/1.0\r") := by
    rintro ⟨n, rest', word, tail, h1, _⟩
    apply hv
    have e1 : (x :: xs) ++ 32 :: (uri ++ b!" RTSP/1.0\r") = b!"RTSP/1.0" ++ 32 :: rest' := by
      rw [show (x :: xs) ++ 32 :: (uri ++ b!" RTSP/1.0\r") = (x :: xs) ++ b!" " ++ uri ++ b!" RTSP/1.0\r" by simp, h1]; simp
    have e2 := cut_append (uri ++ b!" RTSP/1.0\r") hv2
    rw [e1, cut_append rest' (by decide)] at e2
    injection e2 with e2; injection e2 with e2 _
    exact e2.symm
  rw [hline] at p3
  obtain ⟨e, r2, g1, g2, g3, g4⟩ := C73_status_partial r1 _ rest p2 p3 hnl hbad
  have hrecv : recv c.rdr = (.error e, r2) := by
    unfold recv
    rw [p1]
    dsimp only
    rw [if_neg (by simp [hx]), g1]
  have hstep : csteps w c [.read] = .ok { c with rdr := r2, running := false } := by
    unfold csteps cstep
    rw [hne]
    show (match clientRead w c with | .error p => (.error p : Go Client) | .ok c => csteps w c []) = _
    unfold clientRead
    rw [if_pos ⟨hrun, hs, hd⟩, hrecv, hne]
    cases e with
    | io y => exact absurd rfl (g2 y)
    | _ => rfl
  refine ⟨_, hstep, rfl, g4, rfl, fun c'' h => ?_⟩
  obtain ⟨h1, h2⟩ := stopped_steps es (c := { c with rdr := r2, running := false }) rfl h
  exact ⟨h1, by rw [h2]; exact g4⟩

/-- C111 fails for every response that the session cannot use: the client reads nothing any more, whatever it does, for every client that can be reached. -/
theorem C111_response_refuted (w : World) (hw : ∀ o b, w.write o b = .ok) (hl : ∀ o k p, w.listen o k p = .ok) (c : Client) (hr : Reachable w c.sess) (ho : c.sess.opened = true)
    (hne : c.ended = false) (hrun : c.running = true) (hs : c.states = []) (hd : c.data.length ≤ 20) (rsp : Response) (r : Rdr) (hrecv : recv c.rdr = (.ok (.response rsp), r))
    (hbad : ¬ Usable w c.sess rsp) (es : List CEv) (c' : Client) (h : csteps w c (.read :: es) = .ok c') : c'.running = false ∧ c'.rdr = r := by
  unfold csteps cstep at h
  rw [hne] at h
  have h : (match clientRead w c with | .error p => (.error p : Go Client) | .ok c => csteps w c es) = .ok c' := h
  unfold clientRead at h
  rw [if_pos ⟨hrun, hs, hd⟩, hrecv] at h
  dsimp only at h
  cases hi : handleItem w c.sess (.response rsp) with
  | error p => rw [hi] at h; cases h
  | ok se =>
    obtain ⟨s', e⟩ := se
    rw [hi] at h
    dsimp only at h
    have := C111_usable_iff w hw hl c.sess s' hr ho rsp e hi
    cases e with
    | none => exact absurd (this.1 rfl) hbad
    | some e =>
      have hg : goesOn (some e) = false := by
        exact response_ends hw hl ho hi
      have h : csteps w ({ c with rdr := r, running := goesOn (some e) }.adopt s') es = .ok c' := h
      obtain ⟨h1, h2⟩ := stopped_steps es (by exact hg) h
      exact ⟨h1, h2⟩

/-! ## Cases that meet the hypotheses -/

/-- The client with a server that asks something itself after granting OPTIONS and DESCRIBE, and goes on. -/
def demoAsks (bytes : Bytes) (es : List CEv) : Option Client :=
  match clientOpen demoWorld b!"rtsp://h/x" none ⟨[], none, (b!"RTSP/1.0 200 OK\r\nCSeq: 1\r\n\r\n" ++ bytes).map .byte⟩ with
  | .ok c => (csteps demoWorld c es).toOption
  | .error _ => none

def demoRest : Bytes := b!"CSeq: 1\r\n\r\nRTSP/1.0 200 OK\r\nCSeq: 2\r\n\r\n"

/-- The client before the request meets the hypotheses of `C111_request_refuted`. -/
example : (demoAsks (b!"OPTIONS rtsp://c RTSP/1.0\r\n" ++ demoRest) [.read]).map (fun c => (c.ended, c.running, c.states, c.data.length, c.rdr.err.isNone, decide (c.rdr.evs =
    (b!"OPTIONS" ++ b!" " ++ b!"rtsp://c" ++ b!" RTSP/1.0\r\n").map .byte ++ demoRest.map .byte))) = some (false, true, [], 0, true, true) := by decide +kernel

/-- Without the request the answer to DESCRIBE is read; with it, never. -/
example : (demoAsks (b!"RTSP/1.0 200 OK\r\nCSeq: 2\r\n\r\n") [.read, .read]).map (fun c => (c.running, pending 2 c.sess.out)) = some (true, none) := by
  decide +kernel
example : (demoAsks (b!"OPTIONS rtsp://c RTSP/1.0\r\n" ++ demoRest) [.read, .read, .read, .read]).map (fun c => (c.running, (pending 2 c.sess.out).isSome)) = some (false, true) := by
  decide +kernel

/-- Responses that cannot be used: to no request; a challenge without credentials. -/
example : (demoAsks b!"RTSP/1.0 200 OK\r\nCSeq: 7\r\n\r\n" [.read, .read]).map (·.running) = some false := by decide +kernel
example : (demoAsks b!"RTSP/1.0 401 Unauthorized\r\nCSeq: 2\r\nWWW-Authenticate: Basic realm=\"r\"\r\n\r\n" [.read, .read]).map (·.running) = some false := by decide +kernel
/-- One that can be used although it refuses. -/
example : (demoAsks b!"RTSP/1.0 404 Not Found\r\nCSeq: 2\r\n\r\n" [.read, .read]).map (·.running) = some true := by decide +kernel

/-- A session just opened. -/
def demoJust : Sess := (run demoWorld newSession [demoOpen]).toOption.getD newSession

/-- A session at which `C111_usable_iff` distinguishes: OPTIONS is pending, and a request numbered 9 is not. -/
example : Usable demoWorld demoJust (demoRsp 1 200 [] none) := by
  refine ⟨⟨b!"OPTIONS", 1, b!"rtsp://h/x", [], [], []⟩, by decide +kernel, fun h => by (cases h), fun _ h => by (cases h)⟩
example : ¬ Usable demoWorld demoJust (demoRsp 9 200 [] none) := by
  rintro ⟨req, h, _⟩
  have : pending 9 demoJust.out = none := by decide +kernel
  rw [show (demoRsp 9 200 [] none).cseq = 9 from rfl, this] at h
  cases h

end Ouro
