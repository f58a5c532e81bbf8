import Verif.Lemmas.Process
import Verif.Props.Crash
import Verif.Props.Streams
/-! # C108: what is kept does not grow -/
namespace Ouro
open Spec

/-! ## Packets that wait -/

/-- What waits in the two channels. -/
def FewWait (c : Client) : Prop := c.data.length ≤ 21 ∧ c.states.length ≤ 1

theorem few_adopt {c : Client} {s : Sess} {o : List Out} (ho : s.out = o ++ c.sess.out) (h : FewWait c) (h1 : sentData o = []) (h2 : sentStages o = []) : FewWait (c.adopt s) := by
  rw [adopt_eq c ho]
  refine ⟨?_, ?_⟩
  · show (c.data ++ sentData o).length ≤ 21
    rw [h1, List.append_nil]; exact h.1
  · show (c.states ++ sentStages o).length ≤ 1
    rw [h2, List.append_nil]; exact h.2

theorem few_order {w : World} {c c' : Client} {verb uri : Bytes} {hs : Header} (h : FewWait c) (hopen : c.sess.opened = true)
    (hc : c.order (c.sess.deref (command w c.sess verb uri hs)) = .ok c') : FewWait c' := by
  rw [deref_open hopen] at hc
  obtain ⟨s, req, res, e, _, ho, hverb, _, _, hcase⟩ := order_out hopen hc
  have hb : FewWait (c.adopt s) := few_adopt (o := [.sent false req res]) ho h rfl rfl
  rcases hcase with ⟨_, rfl⟩ | ⟨hres, rfl⟩
  · exact hb
  · exact hb

theorem few_read {w : World} {c c' : Client} (hi : FewWait c) (h : clientRead w c = .ok c') : FewWait c' := by
  unfold clientRead at h
  split at h
  · rename_i hcan
    split at h
    · injection h with h; subst h; exact hi
    · injection h with h; subst h; exact hi
    · rename_i item r _
      cases hs : handleItem w c.sess item with
      | error p => rw [hs] at h; cases h
      | ok r' =>
        obtain ⟨s, e⟩ := r'
        rw [hs] at h
        injection h with h; subst h
        have key : ∀ o, s.out = o ++ c.sess.out → sentData o = [] → (sentStages o).length ≤ 1 → FewWait (Client.adopt { c with rdr := r, running := goesOn e } s) := by
          intro o ho h1 h2
          rw [adopt_eq (c := { c with rdr := r, running := goesOn e }) ho]
          refine ⟨?_, ?_⟩
          · show (c.data ++ sentData o).length ≤ 21
            rw [h1, List.append_nil]; exact hi.1
          · show (c.states ++ sentStages o).length ≤ 1
            rw [hcan.2.1, List.nil_append]; exact h2
        cases item with
        | frame ch p =>
          injection hs with hs; injection hs with hs _; subst hs
          rw [adopt_eq (c := { c with rdr := r, running := goesOn e }) (o := [.data ch p]) rfl]
          refine ⟨?_, ?_⟩
          · show (c.data ++ [(ch, p)]).length ≤ 21
            rw [List.length_append, List.length_singleton]; have := hcan.2.2; omega
          · show (c.states ++ []).length ≤ 1
            rw [List.append_nil]; exact hi.2
        | response rsp =>
          cases response_effect hs with
          | plain own ho hown hst hq hset =>
            refine key (own ++ [.got rsp]) (by rw [ho]; simp) (sentData_nil fun x hx ch p e => ?_) ?_
            · rcases List.mem_append.1 hx with hx | hx
              · obtain ⟨req, res, rfl, hv⟩ := hown x hx; cases e
              · rw [List.mem_singleton] at hx; subst hx; cases e
            · have : sentStages (own ++ [.got rsp]) = [] := by
                unfold sentStages
                rw [List.filterMap_eq_nil_iff]
                intro x hx
                rw [List.mem_reverse] at hx
                rcases List.mem_append.1 hx with hx | hx
                · obtain ⟨req, res, rfl, hv⟩ := hown x hx; rfl
                · rw [List.mem_singleton] at hx; subst hx; rfl
              rw [this]; decide
          | retried req res ho hst hq hin => exact key [.sent true req res, .got rsp] ho rfl (show 0 ≤ 1 by decide)
          | granted st v ho hst hv hc hq => exact key [.notified st, .got rsp] ho rfl (show 1 ≤ 1 by decide)
          | ready sinks ho hst hq hin hall => exact key [.started sinks, .notified 1, .got rsp] ho rfl (show 1 ≤ 1 by decide)
  · injection h with h; subst h; exact hi

theorem few_step {w : World} {c c' : Client} {e : CEv} (hi : FewWait c) (hopen : c.sess.opened = true) (h : cstep w c e = .ok c') : FewWait c' := by
  unfold cstep at h
  split at h
  · injection h with h; subst h; exact hi
  · cases e with
    | read => exact few_read hi h
    | expire =>
      injection h with h; subst h
      split <;> exact hi
    | timer =>
      dsimp only at h
      unfold clientTimer at h
      split at h
      · dsimp only at h
        have hi' : FewWait { c with fired := false, trace := .timer :: c.trace } := hi
        split at h
        · exact few_order hi' hopen h
        · split at h
          · exact few_order hi' hopen h
          · split at h
            · injection h with h; subst h; exact hi
            · injection h with h; subst h; exact hi
      · injection h with h; subst h; exact hi
    | stage =>
      dsimp only at h
      unfold clientStage at h
      split at h
      · injection h with h; subst h; exact hi
      · rename_i k ks hks
        dsimp only at h
        have hi' : FewWait { c with states := ks, state := k, trace := .stage k :: c.trace } :=
          ⟨hi.1, by have := hi.2; rw [hks, List.length_cons] at this; show ks.length ≤ 1; omega⟩
        split at h
        · exact few_order hi' hopen h
        · split at h
          · injection h with h; subst h; exact hi'
          · split at h
            · injection h with h; subst h; exact hi'
            · split at h
              · injection h with h; subst h; exact hi'
              · injection h with h; subst h; exact hi'
    | packet =>
      dsimp only at h
      unfold clientPacket at h
      split at h
      · injection h with h; subst h; exact hi
      · rename_i ch payload rest hd
        have hi' : rest.length ≤ 21 := by have := hi.1; rw [hd, List.length_cons] at this; omega
        dsimp only at h
        split at h
        · split at h
          · cases h
          · injection h with h; subst h; exact ⟨hi', hi.2⟩
          · split at h
            · cases h
            · injection h with h; subst h; exact ⟨hi', hi.2⟩
            · injection h with h; subst h; exact ⟨hi', hi.2⟩
        · split at h
          · cases h
          · injection h with h; subst h; exact ⟨hi', hi.2⟩
          · injection h with h; subst h; exact ⟨hi', hi.2⟩

theorem few_steps {w : World} (es : List CEv) : ∀ {c c' : Client}, CInv w c → FewWait c → csteps w c es = .ok c' → FewWait c' := by
  induction es with
  | nil => intro c c' _ hi h; injection h with h; subst h; exact hi
  | cons e es ih =>
    intro c c' hc hi h
    unfold csteps at h
    cases hs : cstep w c e with
    | error p => rw [hs] at h; cases h
    | ok d => rw [hs] at h; exact ih (cstep_inv hc hs) (few_step hi (plain_static hc.reach).1 hs) h

/-- C108, packets: whatever the server sends and whatever the schedule is, at most 21 packets (20 in the channel, one in the hands of the
goroutine that reads) and one stage wait for the client's loop. -/
theorem C108_waiting_partial (w : World) (c : Client) (hr : ClientReachable w c) : c.data.length ≤ 21 ∧ c.states.length ≤ 1 := by
  obtain ⟨uri, user, rdr, n, c0, es, h1, h2⟩ := hr
  refine few_steps es (open_inv h1) ?_ h2
  obtain ⟨b, hb, _, _, h1⟩ := early_before h1
  exact few_order ⟨hb.few, by rw [hb.states]; decide⟩ hb.opened h1

/-! ## Fragments -/

/-- C108, what is kept of fragments: when the last start of a unit in fragments was the packet `v`, and the packets after it had fragments
without a start (`more`: whether it ends the unit, and the content), all their contents are kept, even if the unit has ended. -/
theorem C108_kept_exact (w : World) (c : Client) (hr : ClientReachable w c) (us vs : List Video) (v : Video) (h : UInt8) (first : Bytes)
    (more : List (Bool × Bytes)) (hl : v.load = .fuA h true false first) (hm : vs.map (·.load) = more.map fun m => .fuA h false m.1 m.2)
    (hv : ∀ x ∈ us ++ v :: vs, x.Valid) (hseen : onVideo (seen c.trace) = (us ++ v :: vs).map (fun x => (x.ch, x.rtp.encode))) :
    keptIn c.sink = first ++ more.flatMap (·.2) := by
  rw [((client_pinv hr) _ ⟨hseen, hv⟩).2, keptAfter_append, keptAfter, hl]
  show keptAfter ((if true then [] else _) ++ first) _ = _
  rw [if_pos rfl, List.nil_append]
  clear hv hseen hl
  induction more generalizing first vs with
  | nil =>
    have : vs = [] := List.map_eq_nil_iff.1 hm
    subst this
    simp [keptAfter]
  | cons m more ih =>
    cases vs with
    | nil => cases hm
    | cons x vs =>
      rw [List.map_cons, List.map_cons] at hm
      injection hm with h1 h2
      rw [keptAfter, h1]
      show keptAfter ((if false then [] else first) ++ m.2) _ = _
      rw [if_neg (by decide), ih _ _ h2]
      simp

/-- A fragment that neither starts nor ends a unit, of one byte. -/
def demoMiddle : Video := ⟨0, ⟨false, false, 96, 1, 90, 7, [], none, fuA 0x65 false false [1]⟩, .fuA 0x65 false false [1]⟩

theorem demoMiddle_valid : demoMiddle.Valid ∧ demoMiddle.rtp.encode.length ≤ 2048 := by
  refine ⟨⟨by decide, ⟨by decide, by decide, by decide, by decide, by decide, ?_, ?_⟩, by decide, by decide, ?_⟩, by decide⟩
  · intro x hx; cases hx
  · intro x hx; cases hx
  · show (0x65 : UInt8) &&& 0x80 = 0
    decide

theorem keptAfter_middles (n : Nat) (b : Bytes) : keptAfter b (List.replicate n demoMiddle) = b ++ List.replicate n 1 := by
  induction n generalizing b with
  | zero => simp [keptAfter]
  | succ n ih =>
    rw [List.replicate_succ, keptAfter]
    show keptAfter ((if false then [] else b) ++ [1]) _ = _
    rw [if_neg (by decide), ih, List.replicate_succ]
    simp

/-- C108 fails: for every `n` there is a run in which the client keeps `n` bytes, and has reported nothing: the server sends fragments of one
byte that do not end. -/
theorem C108_fragments_refuted (w : World) (hw : ∀ o b, w.write o b = .ok) (n : Nat) :
    ∃ c, ClientReachable w c ∧ seen c.trace = List.replicate n (0, demoMiddle.rtp.encode) ∧ c.ended = false ∧ (keptIn c.sink).length = n ∧ reported c.trace = [] := by
  obtain ⟨md5, inf, rnd, write, listen⟩ := w
  have hwr : write = fun _ _ => .ok := by funext o b; exact hw o b
  subst hwr
  obtain ⟨evs, hevs⟩ : ∃ evs, Arrives ((List.replicate n demoMiddle).map fun v => .frame v.ch v.rtp.encode) n evs [] := by
    induction n with
    | zero => exact ⟨[], .nil _⟩
    | succ n ih => obtain ⟨evs, h⟩ := ih; exact ⟨_, .msg h⟩
  obtain ⟨c0, h0, h1, h2, h3, h4, h5, h6, h7⟩ : ∃ c0, clientOpen ⟨md5, inf, rnd, fun _ _ => .ok, listen⟩ b!"rtsp://h/x" none ⟨[], none, evs⟩ = .ok c0 ∧ c0.ended = false ∧ c0.running = true ∧ c0.states = [] ∧ c0.data = [] ∧
      c0.rdr = ⟨[], none, evs⟩ ∧ seen c0.trace = [] ∧ c0.sink = newNALSink := ⟨_, rfl, rfl, rfl, rfl, rfl, rfl, rfl, rfl⟩
  obtain ⟨c, g1, g2, g3, g4⟩ := play_rounds (w := ⟨md5, inf, rnd, fun _ _ => .ok, listen⟩) hevs (List.replicate n demoMiddle) c0 ⟨h1, h2, h3, h4⟩ (by rw [h7]; decide) (by rw [h5]) (by rw [h5]; rfl) rfl
    (fun v hv => by rw [List.eq_of_mem_replicate hv]; exact demoMiddle_valid)
  have hr : ClientReachable ⟨md5, inf, rnd, fun _ _ => .ok, listen⟩ c := ⟨_, _, _, 0, _, _, h0, g1⟩
  rw [h6, List.nil_append] at g4
  have hall : AllVideo (onVideo (seen c.trace)) (List.replicate n demoMiddle) := by
    refine ⟨?_, fun v hv => by rw [List.eq_of_mem_replicate hv]; exact demoMiddle_valid.1⟩
    rw [g4]
    unfold onVideo
    rw [List.filter_eq_self]
    intro x hx
    rw [List.map_replicate] at hx
    rw [List.eq_of_mem_replicate hx]
    decide
  have hk := client_pinv hr _ hall
  refine ⟨c, hr, by rw [g4, List.map_replicate]; rfl, g2.going, ?_, ?_⟩
  · rw [hk.2, keptAfter_middles]; simp
  · rw [hk.1]
    generalize ([] : Bytes) = b
    clear hk hall g4 g1 g2 g3 hr hevs h5 h0 evs
    induction n generalizing b with
    | zero => rfl
    | succ n ih => rw [List.replicate_succ, depacketize, ih]; rfl

/-! ## Pending requests -/

theorem keepAlive_kept {w : World} {s : Sess} (inv : Inv s) (ho : s.opened = true) (hp : s.proto ≠ .tcp ∧ s.proto ≠ .http) (hs : 0 < s.stage ∧ s.stage < 4)
    (hw : ∀ o b, w.write o b = .ok) :
    ∃ s', step w s (.keepAlive true) = .ok (s', none) ∧ s'.opened = true ∧ s'.proto = s.proto ∧ s'.stage = s.stage ∧ s'.queue.length = s.queue.length + 1 := by
  obtain ⟨s', hc⟩ := command_ok hw ho hp.2 verbOptions s.baseURI [(b!"Session", s.session)]
  refine ⟨s', ?_, ?_⟩
  · show s.keepAlive w true = _
    unfold Sess.keepAlive
    rw [deref_open ho, if_pos ⟨hp.2, hp.1, hs.1, hs.2, rfl⟩]
    exact hc
  · rcases command_out hc with ⟨_, _, h⟩ | ⟨_, _, a, x, res, rfl, _⟩
    · cases h
    · refine ⟨ho, rfl, rfl, ?_⟩
      show (insertReq s.queue _).length = _
      unfold insertReq
      rw [List.length_append, List.length_singleton, List.filter_eq_self.2]
      intro e he
      have hne : e.1 ≠ ((s.cseq : Int) + 1) := by
        intro heq
        have h1 : s.find e.1 ≠ none := by
          unfold Sess.find
          intro hn
          rw [Option.map_eq_none_iff, List.find?_eq_none] at hn
          exact hn e he (by simp)
        rw [inv.find] at h1
        obtain ⟨q, hq⟩ := Option.ne_none_iff_exists'.1 h1
        have := (inv.range _ _ hq).2.1
        omega
      exact decide_eq_true hne

/-- C108 fails for requests: as long as a server does not answer them, every keep-alive message of a session over UDP is kept, and there is no bound. -/
theorem C108_pending_refuted (w : World) (hw : ∀ o b, w.write o b = .ok) (n : Nat) : ∀ (s : Sess), Reachable w s → s.opened = true → s.proto ≠ .tcp ∧ s.proto ≠ .http →
    0 < s.stage ∧ s.stage < 4 → ∃ s', run w s (List.replicate n (.keepAlive true)) = .ok s' ∧ s'.queue.length = s.queue.length + n := by
  induction n with
  | zero => intro s _ _ _ _; exact ⟨s, rfl, rfl⟩
  | succ n ih =>
    intro s hr ho hp hs
    obtain ⟨t, h1, h2, h3, h4, h5⟩ := keepAlive_kept (inv_reachable hr) ho hp hs hw
    obtain ⟨u, h6, h7⟩ := ih t (reachable_step hr h1) h2 (by rw [h3]; exact hp) (by rw [h4]; exact hs)
    refine ⟨u, ?_, by rw [h7, h5]; omega⟩
    rw [List.replicate_succ]
    unfold run
    rw [h1]
    exact h6

/-- Such a session: UDP, played. -/
example : ∃ s, Reachable demoWorld s ∧ s.opened = true ∧ s.proto = .unicast ∧ s.stage = 2 ∧ s.queue = [] :=
  ⟨_, ⟨[.open_ b!"rtsp://h/x" .unicast none, demoGot 1 200 [] none, demoGot 2 200 [] (some b!"m=video 0 RTP/AVP 96\r\na=control:v\r\n"),
    demoGot 3 200 [(b!"Transport", b!"RTP/AVP;unicast;client_port=50000-50001")] none, .play, demoGot 4 200 [] none], rfl⟩, rfl, rfl, rfl, rfl⟩

end Ouro
