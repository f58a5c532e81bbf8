import Verif.Spec.EndToEnd
import Verif.Props.Main
import Verif.Props.Receive
/-! # C76: from the bytes on the connection to the units reported -/
namespace Ouro
open Spec

theorem framesSent_append (a b : List Msg) : framesSent (a ++ b) = framesSent a ++ framesSent b := by
  induction a with
  | nil => rfl
  | cons m a ih => cases m <;> simp [framesSent, ih]

/-- A command of the client reads nothing. -/
theorem order_rdr {w : World} {c c' : Client} {verb uri : Bytes} {hs : Header} (ho : c.sess.opened = true)
    (h : c.order (c.sess.deref (command w c.sess verb uri hs)) = .ok c') : c'.rdr = c.rdr ∧ framesRead c'.trace = framesRead c.trace := by
  rw [deref_open ho] at h
  obtain ⟨s, req, res, e, _, ho', _, _, _, hcase⟩ := order_out ho h
  have ha := adopt_eq c (s := s) (o := [.sent false req res]) ho'
  rcases hcase with ⟨_, rfl⟩ | ⟨_, rfl⟩
  · rw [ha]; exact ⟨rfl, rfl⟩
  · rw [ha]; exact ⟨rfl, rfl⟩

theorem timer_rdr {w : World} {c c' : Client} (ho : c.sess.opened = true) (h : clientTimer w c = .ok c') :
    c'.rdr = c.rdr ∧ framesRead c'.trace = framesRead c.trace := by
  unfold clientTimer at h
  split at h
  · dsimp only at h
    split at h
    · exact order_rdr (c := { c with fired := false, trace := .timer :: c.trace }) ho h
    · split at h
      · exact order_rdr (c := { c with fired := false, trace := .timer :: c.trace }) ho h
      · split at h <;> (injection h with h; subst h; exact ⟨rfl, rfl⟩)
  · injection h with h; subst h; exact ⟨rfl, rfl⟩

theorem stage_rdr {w : World} {c c' : Client} (ho : c.sess.opened = true) (h : clientStage w c = .ok c') :
    c'.rdr = c.rdr ∧ framesRead c'.trace = framesRead c.trace := by
  unfold clientStage at h
  split at h
  · injection h with h; subst h; exact ⟨rfl, rfl⟩
  · next k ks _ =>
    dsimp only at h
    split at h
    · exact order_rdr (c := { c with states := ks, state := k, trace := .stage k :: c.trace }) ho h
    · split at h
      · injection h with h; subst h; exact ⟨rfl, rfl⟩
      · split at h
        · injection h with h; subst h; exact ⟨rfl, rfl⟩
        · split at h <;> (injection h with h; subst h; exact ⟨rfl, rfl⟩)

theorem packet_rdr {c c' : Client} (h : clientPacket c = .ok c') : c'.rdr = c.rdr ∧ framesRead c'.trace = framesRead c.trace := by
  unfold clientPacket at h
  split at h
  · injection h with h; subst h; exact ⟨rfl, rfl⟩
  · dsimp only at h
    split at h
    · split at h
      · cases h
      · injection h with h; subst h; exact ⟨rfl, rfl⟩
      · split at h
        · cases h
        · injection h with h; subst h; exact ⟨rfl, rfl⟩
        · injection h with h; subst h
          refine ⟨rfl, ?_⟩
          dsimp only
          rw [framesRead_frees]
          · rfl
          · intro a ha ch p e; rw [List.mem_reverse, List.mem_map] at ha; obtain ⟨u, _, rfl⟩ := ha; cases e
    · split at h
      · cases h
      · injection h with h; subst h; exact ⟨rfl, rfl⟩
      · injection h with h; subst h; exact ⟨rfl, rfl⟩

/-- A response gives no frames. -/
theorem response_frames {w : World} {c : Client} {s : Sess} {rsp : Response} {e : Option SErr} (hs : handleItem w c.sess (.response rsp) = .ok (s, e)) :
    framesRead (c.adopt s).trace = framesRead c.trace := by
  have key : ∀ o : List Out, s.out = o ++ c.sess.out → (∀ x ∈ o, ∀ ch p, x ≠ .data ch p) → framesRead (c.adopt s).trace = framesRead c.trace := by
    intro o ho hd
    rw [adopt_eq c ho]
    exact framesRead_frees (fun a ha ch p e => by obtain ⟨x, hx, rfl⟩ := List.mem_map.1 ha; injection e with e; exact hd x hx ch p e) _
  cases response_effect hs with
  | plain own ho hown hst hq hset =>
    refine key (own ++ [.got rsp]) (by rw [ho]; simp) fun x hx ch p e => ?_
    rcases List.mem_append.1 hx with hx | hx
    · obtain ⟨req, res, rfl, hv⟩ := hown x hx; cases e
    · rw [List.mem_singleton] at hx; subst hx; cases e
  | retried req res ho hst hq hin =>
    refine key [.sent true req res, .got rsp] ho fun x hx ch p e => ?_
    simp only [List.mem_cons, List.not_mem_nil, or_false] at hx
    rcases hx with rfl | rfl <;> cases e
  | granted st v ho hst hv hc hq =>
    refine key [.notified st, .got rsp] ho fun x hx ch p e => ?_
    simp only [List.mem_cons, List.not_mem_nil, or_false] at hx
    rcases hx with rfl | rfl <;> cases e
  | ready sinks ho hst hq hin hall =>
    refine key [.started sinks, .notified 1, .got rsp] ho fun x hx ch p e => ?_
    simp only [List.mem_cons, List.not_mem_nil, or_false] at hx
    rcases hx with rfl | rfl | rfl <;> cases e

theorem recv_nil {r : Rdr} (he : r.err = none) (h : r.evs = []) : recv r = (.error (.io .eof), ⟨[], none, []⟩) := by
  obtain ⟨buf, err, net⟩ := r
  have he : err = none := he
  subst he
  unfold Rdr.evs at h
  obtain ⟨h1, h2⟩ := List.append_eq_nil_iff.1 h
  have h1 : buf = [] := List.map_eq_nil_iff.1 h1
  have h2 : net = [] := h2
  subst h1 h2
  rfl

/-- C65, C76: as long as the server says nothing before it is asked, it makes no difference how many turns of the reading goroutine come before OPTIONS is
sent: the client is the same as with these deadlines left out. -/
theorem C65_early (w : World) (uri : Bytes) (user : Option (Bytes × Bytes)) (rest : List Ev) (n : Nat) :
    clientEarly w uri user ⟨[], none, List.replicate n .timeout ++ rest⟩ n = clientOpen w uri user ⟨[], none, rest⟩ := by
  have key : ∀ (n : Nat) (s : Sess), clientEarly.turns w n { rdr := ⟨[], none, List.replicate n .timeout ++ rest⟩, sess := s } = .ok { rdr := ⟨[], none, rest⟩, sess := s } := by
    intro n
    induction n with
    | zero => intro s; rfl
    | succ n ih =>
      intro s
      have h : recv ⟨[], none, List.replicate (n + 1) .timeout ++ rest⟩ = (.error (.io .timeout), ⟨[], none, List.replicate n .timeout ++ rest⟩) := by
        rw [List.replicate_succ]; rfl
      have hr : clientRead w { rdr := ⟨[], none, List.replicate (n + 1) .timeout ++ rest⟩, sess := s } = .ok { rdr := ⟨[], none, List.replicate n .timeout ++ rest⟩, sess := s } := by
        unfold clientRead
        rw [if_pos ⟨rfl, rfl, Nat.zero_le _⟩]
        dsimp only
        rw [h]; rfl
      unfold clientEarly.turns
      rw [hr]
      exact ih s
  unfold clientEarly
  rw [key]
  rfl

example : ∃ c, clientEarly demoWorld b!"rtsp://h/x" none ⟨[], none, List.replicate 2 .timeout ++ [.byte 36]⟩ 2 = .ok c ∧ c.ended = false ∧ c.rdr.net = [.byte 36] := ⟨_, rfl, rfl, rfl⟩

/-- What has been read so far, and what is left. -/
structure RInv (ms : List Msg) (c : Client) : Prop where
  left : ∃ pre post n, ms = pre ++ post ∧ Arrives post n c.rdr.evs [] ∧ framesRead c.trace = framesSent pre
  err : c.rdr.err = none

theorem read_rinv {w : World} {ms : List Msg} (hm : ∀ m ∈ ms, m.Legal ∧ m.size ≤ 2048) {c c' : Client} (hi : RInv ms c) (h : clientRead w c = .ok c') :
    RInv ms c' := by
  obtain ⟨⟨pre, post, n, e1, e2, e3⟩, he⟩ := hi
  unfold clientRead at h
  split at h
  · obtain ⟨evs, hevs⟩ : ∃ evs, c.rdr.evs = evs := ⟨_, rfl⟩
    rw [hevs] at e2
    cases e2 with
    | nil =>
      rw [recv_nil he hevs] at h
      injection h with h; subst h
      exact ⟨⟨pre, [], 0, e1, .nil [], e3⟩, rfl⟩
    | timeout h2 =>
      rw [recv_timeout he hevs] at h
      injection h with h; subst h
      exact ⟨⟨pre, post, _, e1, h2, e3⟩, rfl⟩
    | @msg m post _ evs _ h2 =>
      have hmm := hm m (by rw [e1]; simp)
      obtain ⟨r1, g1, g2, g3⟩ := recv_msg m evs hmm.1 hmm.2 he hevs
      rw [g1] at h
      dsimp only at h
      cases hs : handleItem w c.sess (itemOf m) with
      | error p => rw [hs] at h; cases h
      | ok q =>
        obtain ⟨s, e⟩ := q
        rw [hs] at h
        injection h with h; subst h
        refine ⟨⟨pre ++ [m], post, _, by rw [e1]; simp, by show Arrives _ _ r1.evs _; rw [g3]; exact h2, ?_⟩, g2⟩
        rw [framesSent_append, ← e3]
        cases m with
        | frame ch p =>
          have hs : handleItem w c.sess (.frame ch p) = .ok (s, e) := hs
          injection hs with hs; injection hs with hs _; subst hs
          rw [adopt_eq (c := { c with rdr := r1, running := goesOn e }) (o := [.data ch p]) rfl]
          rfl
        | response x =>
          have := response_frames (c := { c with rdr := r1, running := goesOn e }) hs
          rw [this, framesSent, framesSent, List.append_nil]
  · injection h with h; subst h; exact ⟨⟨pre, post, n, e1, e2, e3⟩, he⟩

theorem RInv.same {ms : List Msg} {c c' : Client} (hi : RInv ms c) (h : c'.rdr = c.rdr ∧ framesRead c'.trace = framesRead c.trace) : RInv ms c' := by
  obtain ⟨⟨pre, post, n, e1, e2, e3⟩, he⟩ := hi
  exact ⟨⟨pre, post, n, e1, by rw [h.1]; exact e2, by rw [h.2]; exact e3⟩, by rw [h.1]; exact he⟩

theorem cstep_rinv {w : World} {ms : List Msg} (hm : ∀ m ∈ ms, m.Legal ∧ m.size ≤ 2048) {c c' : Client} {e : CEv} (hi : RInv ms c)
    (ho : c.sess.opened = true) (h : cstep w c e = .ok c') : RInv ms c' := by
  unfold cstep at h
  split at h
  · injection h with h; subst h; exact hi
  · cases e with
    | read => exact read_rinv hm hi h
    | timer => exact hi.same (timer_rdr ho h)
    | stage => exact hi.same (stage_rdr ho h)
    | packet => exact hi.same (packet_rdr h)
    | expire => injection h with h; subst h; split <;> exact hi.same ⟨rfl, rfl⟩

theorem csteps_rinv {w : World} {ms : List Msg} (hm : ∀ m ∈ ms, m.Legal ∧ m.size ≤ 2048) (es : List CEv) :
    ∀ {c c' : Client}, CInv w c → RInv ms c → csteps w c es = .ok c' → RInv ms c' := by
  induction es with
  | nil => intro c c' _ hi h; injection h with h; subst h; exact hi
  | cons e es ih =>
    intro c c' hc hi h
    unfold csteps at h
    cases hs : cstep w c e with
    | error p => rw [hs] at h; cases h
    | ok d => rw [hs] at h; exact ih (cstep_inv hc hs) (cstep_rinv hm hi (plain_static hc.reach).1 hs) h

theorem runs_rinv {w : World} {uri : Bytes} {user : Option (Bytes × Bytes)} {evs : List Ev} {es : List CEv} {c : Client} (h : ClientRuns w uri user evs es c)
    {ms : List Msg} (hm : ∀ m ∈ ms, m.Legal ∧ m.size ≤ 2048) {n : Nat} (ha : Arrives ms n evs []) : RInv ms c := by
  obtain ⟨k, c0, h1, h2⟩ := h
  refine csteps_rinv hm es (open_inv h1) ?_ h2
  obtain ⟨b, hb, ht, _, h1⟩ := early_before h1
  have h0 : RInv ms { rdr := ⟨[], none, evs⟩, sess := { newSession with opened := true, baseURI := uri, proto := .tcp, user := user } } :=
    ⟨⟨[], ms, n, rfl, ha, rfl⟩, rfl⟩
  have key : ∀ (k : Nat) (c c' : Client), RInv ms c → clientEarly.turns w k c = .ok c' → RInv ms c' := by
    intro k
    induction k with
    | zero => intro c c' hi h; injection h with h; subst h; exact hi
    | succ k ih =>
      intro c c' hi h
      unfold clientEarly.turns at h
      cases hr : clientRead w c with
      | error p => rw [hr] at h; cases h
      | ok d => rw [hr] at h; exact ih d c' (read_rinv hm hi hr) h
  exact (key k _ b h0 ht).same (order_rdr hb.opened h1)

theorem runs_reachable {w : World} {uri : Bytes} {user : Option (Bytes × Bytes)} {evs : List Ev} {es : List CEv} {c : Client}
    (h : ClientRuns w uri user evs es c) : ClientReachable w c := by
  obtain ⟨n, c0, h1, h2⟩ := h
  exact ⟨uri, user, _, n, c0, es, h1, h2⟩

theorem clean_of {b : Bytes} (h : ∀ x y, b ≠ x ++ [0, 0, 1] ++ y ∧ b ≠ x ++ [0, 0, 3] ++ y) : Clean b :=
  ⟨fun ⟨x, y, e⟩ => (h x y).1 e.symm, fun ⟨x, y, e⟩ => (h x y).2 e.symm⟩

theorem arrives_nil {ms : List Msg} {n : Nat} {evs : List Ev} (h : Arrives ms n evs []) (he : evs = []) : ms = [] := by
  cases h with
  | nil => rfl
  | timeout h => cases he
  | msg h =>
    rename_i m _ _ _
    cases m with
    | frame ch p => cases he
    | response s => obtain ⟨t, ht⟩ := text_head s; rw [Msg.bytes, ht] at he; cases he

/-- C76: a server sends responses and interleaved frames, of at most 2048 bytes of data each, cut into pieces of any size by the network,
with read deadlines expiring between them. Those on even channels are RTP packets with H.264. Then at any moment of any schedule the units
the client has reported are those of the first so many packets, in order, complete, each with its timestamp: nothing is lost, repeated,
reordered or made up. Missing: see C52-C54 (larger messages, deadlines inside a message) and `C66_packet_partial`. -/
theorem C76_prefix_partial (w : World) (uri : Bytes) (user : Option (Bytes × Bytes)) (ms : List Msg) (hm : ∀ m ∈ ms, m.Legal ∧ m.size ≤ 2048) (n : Nat)
    (evs : List Ev) (ha : Arrives ms n evs []) (vs : List Video) (hv : Carries264 ms vs) (es : List CEv) (c : Client)
    (hc : ClientRuns w uri user evs es c) : ∃ k, reported c.trace = depacketize [] (vs.take k) := by
  obtain ⟨⟨pre, post, _, e1, _, e3⟩, _⟩ := runs_rinv hc hm ha
  have hf := C66_fifo w c (runs_reachable hc)
  have hpre : onVideo (seen c.trace) <+: vs.map (fun v => (v.ch, v.rtp.encode)) := by
    rw [← hv.1, e1, framesSent_append, ← e3, ← hf]
    unfold onVideo
    rw [List.filter_append, List.filter_append, List.append_assoc]
    exact List.prefix_append _ _
  refine ⟨(onVideo (seen c.trace)).length, C66_pipeline_partial w c (runs_reachable hc) _ ⟨?_, fun v hv' => ?_⟩⟩
  · rw [List.map_take]; exact List.prefix_iff_eq_take.1 hpre
  · exact hv.2 v (List.mem_of_mem_take hv')

/-- C76: when everything the connection delivered has been read and taken from the channel, all units have been reported. -/
theorem C76_all_partial (w : World) (uri : Bytes) (user : Option (Bytes × Bytes)) (ms : List Msg) (hm : ∀ m ∈ ms, m.Legal ∧ m.size ≤ 2048) (n : Nat)
    (evs : List Ev) (ha : Arrives ms n evs []) (vs : List Video) (hv : Carries264 ms vs) (es : List CEv) (c : Client)
    (hc : ClientRuns w uri user evs es c) (hread : c.rdr.buf = [] ∧ c.rdr.net = []) (htaken : c.data = []) : reported c.trace = depacketize [] vs := by
  obtain ⟨⟨pre, post, _, e1, e2, e3⟩, _⟩ := runs_rinv hc hm ha
  have hp : post = [] := arrives_nil e2 (by unfold Rdr.evs; rw [hread.1, hread.2]; rfl)
  have hf := C66_fifo w c (runs_reachable hc)
  rw [hp, List.append_nil] at e1
  rw [htaken, List.append_nil] at hf
  refine C66_pipeline_partial w c (runs_reachable hc) _ ⟨?_, hv.2⟩
  rw [hf, e3, ← e1, hv.1]

theorem csteps_append {w : World} (es fs : List CEv) : ∀ {c d : Client}, csteps w c es = .ok d → csteps w c (es ++ fs) = csteps w d fs := by
  induction es with
  | nil => intro c d h; injection h with h; subst h; rfl
  | cons e es ih =>
    intro c d h
    rw [List.cons_append]
    rw [csteps] at h ⊢
    cases hs : cstep w c e with
    | error p => rw [hs] at h; cases h
    | ok x => rw [hs] at h; exact ih h

/-- The client is playing: its goroutine runs and nothing waits. -/
structure Playing (c : Client) : Prop where
  going : c.ended = false
  running : c.running = true
  states : c.states = []
  data : c.data = []

theorem play_rounds {w : World} {ms : List Msg} {n : Nat} {evs rest : List Ev} (ha : Arrives ms n evs rest) : ∀ (vs : List Video) (c : Client), Playing c →
    c.sink.don < 65536 → c.rdr.err = none → c.rdr.evs = evs → ms = vs.map (fun v => .frame v.ch v.rtp.encode) → (∀ v ∈ vs, v.Valid ∧ v.rtp.encode.length ≤ 2048) →
    ∃ c', csteps w c (List.replicate n [CEv.read, .packet]).flatten = .ok c' ∧ Playing c' ∧ c'.rdr.evs = rest ∧
      seen c'.trace = seen c.trace ++ vs.map (fun v => (v.ch, v.rtp.encode)) := by
  induction ha with
  | nil rest =>
    intro vs c hp hd he hr hv hval
    have : vs = [] := List.map_eq_nil_iff.1 hv.symm
    subst this
    exact ⟨c, rfl, hp, hr, by simp⟩
  | @timeout ms n evs rest h ih =>
    intro vs c hp hd he hr hv hval
    obtain ⟨c', g1, g2, g3, g4⟩ := ih vs { c with rdr := ⟨[], none, evs⟩ } ⟨hp.going, hp.running, hp.states, hp.data⟩ hd rfl rfl hv hval
    refine ⟨c', ?_, g2, g3, g4⟩
    have e1 : cstep w c .read = .ok { c with rdr := ⟨[], none, evs⟩ } := by
      unfold cstep
      rw [if_neg (by rw [hp.going]; decide)]
      show clientRead w c = _
      unfold clientRead
      rw [if_pos ⟨hp.running, hp.states, by rw [hp.data]; decide⟩, recv_timeout he hr]
      rfl
    have e2 : cstep w { c with rdr := ⟨[], none, evs⟩ } .packet = .ok { c with rdr := ⟨[], none, evs⟩ } := by
      unfold cstep
      rw [if_neg (by show ¬ c.ended = true; rw [hp.going]; decide)]
      show clientPacket _ = _
      unfold clientPacket
      dsimp only
      rw [hp.data]
      rfl
    show csteps w c (.read :: .packet :: _) = _
    rw [csteps, e1]
    dsimp only
    rw [csteps, e2]
    exact g1
  | @msg m ms n evs rest h ih =>
    intro vs c hp hd he hr hv hval
    cases vs with
    | nil => cases hv
    | cons v vs =>
      injection hv with hv1 hv2
      obtain ⟨k1, k3⟩ := hval v (by simp)
      rw [hv1] at hr
      obtain ⟨r1, f1, f2, f3⟩ := recv_frame v.ch v.rtp.encode evs k3 he hr
      let d : Client := { c with rdr := r1, running := true, sess := { c.sess with out := .data v.ch v.rtp.encode :: c.sess.out }, states := c.states ++ [], data := c.data ++ [(v.ch, v.rtp.encode)], trace := .wire (.data v.ch v.rtp.encode) :: c.trace }
      have e1 : cstep w c .read = .ok d := by
        unfold cstep
        rw [if_neg (by rw [hp.going]; decide)]
        show clientRead w c = _
        unfold clientRead
        rw [if_pos ⟨hp.running, hp.states, by rw [hp.data]; decide⟩, f1]
        show Except.ok (Client.adopt { c with rdr := r1, running := true } { c.sess with out := .data v.ch v.rtp.encode :: c.sess.out }) = _
        rw [adopt_eq (c := { c with rdr := r1, running := true }) (o := [.data v.ch v.rtp.encode]) rfl]
        rfl
      obtain ⟨sink, i1, i2, i3⟩ := clientPacket_video (c := d) hd v k1 [] (by show c.data ++ _ = _; rw [hp.data]; rfl)
      have e2 : cstep w d .packet = .ok { d with data := [], sink := sink, trace := (sink.units.map .unit).reverse ++ .packet v.ch v.rtp.encode :: d.trace } := by
        unfold cstep
        rw [if_neg (by show ¬ c.ended = true; rw [hp.going]; decide)]
        exact i1
      have hdon : sink.don < 65536 := by
        have hp1 := C23_unpack v.rtp k1.rtp
        obtain ⟨q, hq, _⟩ := hp1
        have i1' := i1
        unfold clientPacket at i1'
        have hdd : d.data = (v.ch, v.rtp.encode) :: [] := by show c.data ++ _ = _; rw [hp.data]; rfl
        rw [hdd] at i1'
        dsimp only at i1'
        rw [if_pos k1.even, hq] at i1'
        dsimp only at i1'
        split at i1'
        · cases i1'
        · injection i1' with i1'
          have : true = d.ended := congrArg Client.ended i1'
          rw [show d.ended = c.ended from rfl, hp.going] at this
          cases this
        · next t ht =>
          injection i1' with i1'
          have : t = sink := congrArg Client.sink i1'
          subst this
          exact push_don (show c.sink.don < 65536 from hd) ht
      obtain ⟨c', g1, g2, g3, g4⟩ := ih vs { d with data := [], sink := sink, trace := (sink.units.map .unit).reverse ++ .packet v.ch v.rtp.encode :: d.trace }
        ⟨hp.going, rfl, by show c.states ++ [] = []; rw [hp.states]; rfl, rfl⟩ hdon f2 f3 hv2 (fun x hx => hval x (by simp [hx]))
      refine ⟨c', ?_, g2, g3, ?_⟩
      · show csteps w c (.read :: .packet :: _) = _
        rw [csteps, e1]
        dsimp only
        rw [csteps, e2]
        exact g1
      · rw [g4]
        dsimp only
        rw [seen_frees]
        · show (seen c.trace ++ [(v.ch, v.rtp.encode)]) ++ _ = _
          simp
        · intro a ha ch p e; rw [List.mem_reverse, List.mem_map] at ha; obtain ⟨u, _, rfl⟩ := ha; cases e

/-- C76, the client does deliver: from any state of a run in which nothing waits to be received, when the server goes on with video packets
(deadlines may expire between them) and the two loops take turns, the client reports all units of the packets and is ready for more. -/
theorem C76_live_partial (w : World) (c : Client) (hr : ClientReachable w c) (hne : c.ended = false) (hrun : c.running = true) (hst : c.states = []) (hda : c.data = [])
    (he : c.rdr.err = none) (us vs : List Video) (hus : onVideo (seen c.trace) = us.map (fun v => (v.ch, v.rtp.encode)))
    (hval : ∀ v ∈ us ++ vs, v.Valid ∧ v.rtp.encode.length ≤ 2048)
    (n : Nat) (rest : List Ev) (ha : Arrives (vs.map fun v => .frame v.ch v.rtp.encode) n (c.rdr.buf.map .byte ++ c.rdr.net) rest) :
    ∃ c', csteps w c (List.replicate n [CEv.read, .packet]).flatten = .ok c' ∧ c'.ended = false ∧ c'.running = true ∧ c'.rdr.buf.map .byte ++ c'.rdr.net = rest ∧
      reported c'.trace = depacketize [] (us ++ vs) := by
  obtain ⟨c', g1, g2, g3, g4⟩ := play_rounds (w := w) ha vs c ⟨hne, hrun, hst, hda⟩ (client_tinv hr).don he rfl rfl
    (fun v hv => hval v (by simp [hv]))
  refine ⟨c', g1, g2.going, g2.running, g3, ?_⟩
  have hr' : ClientReachable w c' := by
    obtain ⟨uri, user, rdr, m, c0, es, j1, j2⟩ := hr
    exact ⟨uri, user, rdr, m, c0, es ++ (List.replicate n [CEv.read, .packet]).flatten, j1, (csteps_append es _ j2).trans g1⟩
  refine C66_pipeline_partial w c' hr' _ ⟨?_, fun v hv => (hval v hv).1⟩
  rw [g4]
  unfold onVideo
  rw [List.filter_append, List.map_append]
  congr 1
  rw [List.filter_eq_self]
  intro x hx
  obtain ⟨v, hv, rfl⟩ := List.mem_map.1 hx
  have := (hval v (by simp [hv])).1.even
  simpa using this

/-- The server of the demonstration: four responses and, while playing, four packets of video. -/
def demoMsgs : List Msg := [
  .response ⟨200, b!"OK", [⟨b!"CSeq", [32], b!"1"⟩], []⟩,
  .response ⟨200, b!"OK", [⟨b!"CSeq", [32], b!"2"⟩, ⟨b!"Content-Length", [32], b!"35"⟩], b!"m=video 0 RTP/AVP 96\r\na=control:v\r\n"⟩,
  .response ⟨200, b!"OK", [⟨b!"CSeq", [32], b!"3"⟩], []⟩,
  .response ⟨200, b!"OK", [⟨b!"CSeq", [32], b!"4"⟩], []⟩] ++
  demoVideo.map (fun v => .frame v.ch v.rtp.encode)

/-- What the connection delivers, with a deadline that expires before the first packet. -/
def demoEvents : List Ev :=
  (demoMsgs.take 4).flatMap (fun m => m.bytes.map .byte) ++ .timeout :: (demoMsgs.drop 4).flatMap (fun m => m.bytes.map .byte)

theorem demoMsgs_legal : ∀ m ∈ demoMsgs, m.Legal ∧ m.size ≤ 2048 := by
  intro m hm
  unfold demoMsgs at hm
  rcases List.mem_append.1 hm with hm | hm
  · simp only [List.mem_cons, List.not_mem_nil, or_false] at hm
    rcases hm with rfl | rfl | rfl | rfl
    all_goals refine ⟨⟨⟨by decide, ⟨by decide, by decide⟩, ?_, by decide⟩, ?_⟩, by decide⟩
    all_goals first
      | (intro h hh
         simp only [List.mem_cons, List.not_mem_nil, or_false] at hh
         first
           | (subst hh; exact ⟨⟨by decide, by decide⟩, by decide, by decide, by decide, by decide⟩)
           | (rcases hh with rfl | rfl <;> exact ⟨⟨by decide, by decide⟩, by decide, by decide, by decide, by decide⟩))
      | exact ⟨1, by decide, by decide⟩
      | exact ⟨2, by decide, by decide⟩
      | exact ⟨3, by decide, by decide⟩
      | exact ⟨4, by decide, by decide⟩
  · obtain ⟨v, hv, rfl⟩ := List.mem_map.1 hm
    have : ∀ v ∈ demoVideo, v.rtp.encode.length ≤ 2048 := by decide
    have := this v hv
    exact ⟨show v.rtp.encode.length ≤ 65535 by omega, this⟩

/-- The hypotheses of `C76_prefix_partial` and `C76_all_partial` are met: a run in which everything was read and taken. -/
example : ∃ (n : Nat) (c : Client), (∀ m ∈ demoMsgs, m.Legal ∧ m.size ≤ 2048) ∧ Arrives demoMsgs n demoEvents [] ∧ Carries264 demoMsgs demoVideo ∧
    ClientRuns demoWorld b!"rtsp://h/x" none demoEvents (demoPlay ++ [.read] ++ demoFrame ++ demoFrame ++ demoFrame ++ demoFrame) c ∧
    (c.rdr.buf = [] ∧ c.rdr.net = []) ∧ c.data = [] ∧ (depacketize [] demoVideo).length = 4 := by
  have h : ((clientOpen demoWorld b!"rtsp://h/x" none ⟨[], none, demoEvents⟩).toOption.bind fun c0 =>
      (csteps demoWorld c0 (demoPlay ++ [.read] ++ demoFrame ++ demoFrame ++ demoFrame ++ demoFrame)).toOption.map fun c => (c.rdr.buf, c.rdr.net, c.data)) =
      some ([], [], []) := by decide +kernel
  cases h0 : clientOpen demoWorld b!"rtsp://h/x" none ⟨[], none, demoEvents⟩ with
  | error p => rw [h0] at h; cases h
  | ok c0 =>
    rw [h0] at h
    have h : (csteps demoWorld c0 (demoPlay ++ [.read] ++ demoFrame ++ demoFrame ++ demoFrame ++ demoFrame)).toOption.map (fun c => (c.rdr.buf, c.rdr.net, c.data)) = some ([], [], []) := h
    cases h1 : csteps demoWorld c0 (demoPlay ++ [.read] ++ demoFrame ++ demoFrame ++ demoFrame ++ demoFrame) with
    | error p => rw [h1] at h; cases h
    | ok c =>
      rw [h1] at h
      injection h with h
      injection h with h2 h
      injection h with h3 h4
      refine ⟨9, c, demoMsgs_legal, ?_, ⟨by decide, demoVideo_valid⟩, ⟨0, c0, h0, h1⟩, ⟨h2, h3⟩, h4, by decide⟩
      · have h5 := Arrives.timeout (arrives_plain (demoMsgs.drop 4))
        have h6 : ∀ (l : List Msg) {ms n evs}, Arrives ms n evs [] → Arrives (l ++ ms) (l.length + n) (l.flatMap (fun m => m.bytes.map .byte) ++ evs) [] := by
          intro l
          induction l with
          | nil => intro ms n evs h; simpa using h
          | cons m l ih =>
            intro ms n evs h
            rw [List.flatMap_cons, List.append_assoc, List.length_cons, show l.length + 1 + n = l.length + n + 1 by omega]
            exact .msg (ih h)
        exact h6 (demoMsgs.take 4) h5

/-- The hypotheses of `C76_live_partial` are met: the client of the demonstration once it plays. -/
example : ∃ c, ClientReachable demoWorld c ∧ c.ended = false ∧ c.running = true ∧ c.states = [] ∧ c.data = [] ∧ c.rdr.err = none ∧ onVideo (seen c.trace) = [] ∧
    Arrives (demoVideo.map fun v => .frame v.ch v.rtp.encode) 5 (c.rdr.buf.map .byte ++ c.rdr.net) [] := by
  have h : ((clientOpen demoWorld b!"rtsp://h/x" none ⟨[], none, demoEvents⟩).toOption.bind fun c0 =>
      (csteps demoWorld c0 demoPlay).toOption.map fun c => (!c.ended && c.running && c.states.isEmpty && c.data.isEmpty && c.rdr.err.isNone && (onVideo (seen c.trace)).isEmpty, c.rdr.buf.map Ev.byte ++ c.rdr.net)) =
      some (true, .timeout :: (demoVideo.map fun v => Msg.frame v.ch v.rtp.encode).flatMap (fun m => m.bytes.map .byte)) := by decide +kernel
  cases h0 : clientOpen demoWorld b!"rtsp://h/x" none ⟨[], none, demoEvents⟩ with
  | error p => rw [h0] at h; cases h
  | ok c0 =>
    rw [h0] at h
    dsimp only [Except.toOption, Option.bind] at h
    cases h1 : csteps demoWorld c0 demoPlay with
    | error p => rw [h1] at h; cases h
    | ok c =>
      rw [h1] at h
      injection h with h
      injection h with h2 h
      simp only [Bool.and_eq_true, Bool.not_eq_true', List.isEmpty_iff, Option.isNone_iff_eq_none] at h2
      obtain ⟨⟨⟨⟨⟨h2, h3⟩, h4⟩, h5⟩, h6⟩, h7⟩ := h2
      refine ⟨c, ⟨_, _, _, 0, c0, demoPlay, h0, h1⟩, h2, h3, h4, h5, h6, h7, ?_⟩
      rw [h]
      exact .timeout (arrives_plain _)

end Ouro
