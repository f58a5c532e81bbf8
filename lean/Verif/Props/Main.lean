import Verif.Lemmas.MainTrace
import Verif.Props.Nal
import Verif.Props.Rtp
import Verif.Props.Setup
/-! # C65, C66: the command line client -/
namespace Ouro
open Spec

/-- A server that answers everything, with one feed, and some frames while playing. -/
def demoStream (frames : List Bytes) : Bytes :=
  b!"RTSP/1.0 200 OK\r\nCSeq: 1\r\n\r\nRTSP/1.0 200 OK\r\nCSeq: 2\r\nContent-Length: 35\r\n\r\nm=video 0 RTP/AVP 96\r\na=control:v\r\n" ++
  b!"RTSP/1.0 200 OK\r\nCSeq: 3\r\n\r\nRTSP/1.0 200 OK\r\nCSeq: 4\r\n\r\n" ++ frames.flatMap (fun p => (Msg.frame 0 p).bytes) ++
  b!"RTSP/1.0 200 OK\r\nCSeq: 5\r\n\r\nRTSP/1.0 200 OK\r\nCSeq: 6\r\n\r\n"

/-- The client with that server. -/
def demoClient (frames : List Bytes) (es : List CEv) : Option Client :=
  match clientOpen demoWorld b!"rtsp://h/x" none ⟨[], none, (demoStream frames).map .byte⟩ with
  | .ok c => (csteps demoWorld c es).toOption
  | .error _ => none

theorem demoClient_reachable {frames : List Bytes} {es : List CEv} {c : Client} (h : demoClient frames es = some c) : ClientReachable demoWorld c := by
  unfold demoClient at h
  split at h
  · next c0 h0 =>
    cases hs : csteps demoWorld c0 es with
    | error p => rw [hs] at h; cases h
    | ok d => rw [hs] at h; injection h with h; subst h; exact ⟨_, _, _, 0, c0, es, h0, hs⟩
  · cases h

/-- What such a client can be seen to do. -/
theorem demoClient_shows {frames : List Bytes} {es : List CEv} {α : Type} {f : Client → α} {a : α} (h : (demoClient frames es).map f = some a) :
    ∃ c, ClientReachable demoWorld c ∧ f c = a := by
  cases hc : demoClient frames es with
  | none => rw [hc] at h; cases h
  | some c => rw [hc] at h; injection h with h; exact ⟨c, demoClient_reachable hc, h⟩

/-- Up to playing; a frame taken; the rest of the session. -/
def demoPlay : List CEv := [.read, .read, .read, .stage, .read, .stage]
def demoFrame : List CEv := [.read, .packet]
def demoStop : List CEv := [.expire, .timer, .read, .stage, .expire, .timer, .read, .stage, .expire, .timer]

/-! ## C65 -/

/-- C65: whatever the server sends and however timer, stages and packets are scheduled, the client goes through the course of a session in
this order, each milestone once: Ready, PLAY, playing, PAUSE, paused, TEARDOWN, done, the end. -/
theorem C65_course (w : World) (c : Client) (h : ClientReachable w c) : milestones c.trace <+: course := by
  obtain ⟨n, _, hm, _⟩ := (client_inv h).course
  rw [hm]
  exact List.take_prefix _ _

/-- C65: every request and every end of the client has its reason just before it: PLAY is sent on receiving Ready; PAUSE and TEARDOWN when
the timer fires while the last stage received is Play, or Pause; the client finishes when the timer fires in stage Done; otherwise it
ends on a packet it cannot use or when a command could not be written. -/
theorem C65_reasons (w : World) (c : Client) (h : ClientReachable w c) (newer older : List Act) (a : Act) (e : c.trace = newer ++ a :: older) : Justified older a :=
  (client_tinv h).just.mem e

/-- The whole course happens. -/
example : ∃ c, ClientReachable demoWorld c ∧ milestones c.trace = course :=
  demoClient_shows (frames := []) (es := demoPlay ++ demoStop) (by decide +kernel)

/-- An end for a bad packet, while playing: a frame that is not RTP. -/
example : ∃ c, ClientReachable demoWorld c ∧ (milestones c.trace, c.ended) = (course.take 3, true) :=
  demoClient_shows (frames := [[0, 0]]) (es := demoPlay ++ demoFrame) (by decide +kernel)

/-- The course also happens when `process` has read a frame before OPTIONS was sent; the client takes it first. -/
def demoEarly : Option Client :=
  match clientEarly demoWorld b!"rtsp://h/x" none ⟨[], none, ((Msg.frame 0 [0x80, 96, 0, 1, 0, 0, 0, 2, 0, 0, 0, 3, 0x41, 9]).bytes ++ demoStream []).map .byte⟩ 1 with
  | .ok c => (csteps demoWorld c ([.packet] ++ demoPlay ++ demoStop)).toOption
  | .error _ => none

example : ∃ c, ClientReachable demoWorld c ∧ milestones c.trace = course ∧
    (match c.trace.reverse with
      | .wire (.data 0 _) :: .wire (.sent false q .ok) :: .packet 0 _ :: _ => q.verb = b!"OPTIONS"
      | _ => False) := by
  have h : demoEarly.map (fun c => (milestones c.trace, match c.trace.reverse with
      | .wire (.data 0 _) :: .wire (.sent false q .ok) :: .packet 0 _ :: _ => decide (q.verb = b!"OPTIONS")
      | _ => false)) = some (course, true) := by decide +kernel
  unfold demoEarly at h
  split at h
  · next c0 h0 =>
    cases h1 : csteps demoWorld c0 ([.packet] ++ demoPlay ++ demoStop) with
    | error p => rw [h1] at h; cases h
    | ok c =>
      rw [h1] at h
      injection h with h
      injection h with h2 h3
      refine ⟨c, ⟨_, _, _, 1, c0, _, h0, h1⟩, h2, ?_⟩
      split at h3
      · exact of_decide_eq_true h3
      · cases h3
  · cases h

/-! ## C66 -/

theorem depacketize_append (vs us : List Video) : ∀ b, depacketize b (vs ++ us) = depacketize b vs ++ depacketize (keptAfter b vs) us := by
  induction vs with
  | nil => intro b; rfl
  | cons v vs ih => intro b; simp only [List.cons_append, depacketize, keptAfter, ih, List.append_assoc]

theorem keptAfter_append (vs us : List Video) : ∀ b, keptAfter b (vs ++ us) = keptAfter (keptAfter b vs) us := by
  induction vs with
  | nil => intro b; rfl
  | cons v vs ih => intro b; simp only [List.cons_append, keptAfter, ih]

/-- What a caller sees of a unit. -/
def shown (u : NALUnit) : UInt8 × Nat × Bytes := (u.header, u.ts, u.data)

/-- The pieces a sink keeps. -/
def keptIn (s : NALSink) : Bytes := s.fragments.flatMap (·.unit.data)

theorem push_load (s : NALSink) (hs : s.don < 65536) (l : Load) (hl : l.Valid) {b : Bytes} (hb : ¬ [0, 0, 1] <:+: b) (hc : unescape 0 b = l.bytes) (ts : Nat) :
    ∃ s', push s b ts = .ok (none, s') ∧ s'.units.map shown = l.units (keptIn s) ts ∧ keptIn s' = l.kept (keptIn s) := by
  rw [push_no_start_code _ _ _ hb, hc]
  have fu : ∀ (h : UInt8), h &&& 0x80 = 0 → h &&& 0x7F = h := by
    intro h hh
    have e : (h.toBitVec &&& 0x80#8) = 0#8 → (h.toBitVec &&& 0x7F#8) = h.toBitVec := by
      clear hh
      generalize h.toBitVec = x
      revert x; decide
    have e2 : h.toBitVec &&& 0x80#8 = 0#8 := congrArg UInt8.toBitVec hh
    exact UInt8.toBitVec_inj.1 (e e2)
  cases l with
  | single u => exact ⟨_, parseNAL_plain s u hl ts, rfl, rfl⟩
  | stapA f us =>
    refine ⟨_, parseNAL_stapA s hs f us hl ts, ?_, rfl⟩
    show (numbered s.don ts us).map shown = us.map _
    apply List.ext_getElem
    · simp [numbered]
    · intro i _ _; simp [numbered, shown]
  | stapB f don us =>
    refine ⟨_, parseNAL_stapB s f don hl.1 us hl.2 ts, ?_, rfl⟩
    show (numbered don ts us).map shown = us.map _
    apply List.ext_getElem
    · simp [numbered]
    · intro i _ _; simp [numbered, shown]
  | mtap16 f donb us =>
    have ht := typeByte_26 f
    have h := parseNAL_mtap_units s (typeByte f 26) (.inl ht) donb hl.1 us (by
      intro u hu; have := (hl.2 u hu).1; rw [ht]; simp [mtapHdr]; omega) ts
    have e : us.flatMap (mtapUnit (typeByte f 26 &&& 0x1F)) = us.flatMap mtap16Unit := by
      congr 1; funext u; rw [ht]; rfl
    rw [e, ht] at h
    refine ⟨_, h, ?_, rfl⟩
    simp only [addMtap, List.nil_append, Load.units]
    apply List.ext_getElem
    · simp
    · intro i h1 h2
      simp only [List.length_map, List.length_mapIdx] at h1
      have := (hl.2 us[i] (List.getElem_mem _)).2
      have hne : ((26 : UInt8) == 27) = false := by decide
      simp only [List.getElem_map, List.getElem_mapIdx, mtapOff, shown, u32, hne, Bool.false_eq_true, if_false, Prod.mk.injEq, true_and, and_true]
      omega
  | fuA h a b piece =>
    refine ⟨_, parseNAL_fu s h a b ⟨none, piece, ts⟩ (by simp) ts, ?_⟩
    rw [addFragment_fu, fu h hl]
    constructor
    · cases a <;> cases b <;> simp [Load.units, shown, frag, keptIn]
    · cases a <;> cases b <;> simp [Load.kept, frag, keptIn]
  | fuB h a b don piece =>
    refine ⟨_, parseNAL_fu s h a b ⟨some don, piece, ts⟩ (by rintro d ⟨⟩; exact hl.2) ts, ?_⟩
    rw [addFragment_fu, fu h hl.1]
    constructor
    · cases a <;> cases b <;> simp [Load.units, shown, frag, keptIn]
    · cases a <;> cases b <;> simp [Load.kept, frag, keptIn]

theorem reported_units (us : List NALUnit) (b : List Act) : reported ((us.map Act.unit).reverse ++ b) = reported b ++ us.map shown := by
  induction us generalizing b with
  | nil => simp
  | cons u us ih =>
    rw [List.map_cons, List.reverse_cons, List.append_assoc, ih]
    simp [reported, shown]

theorem reported_other {a : Act} (h : ∀ u, a ≠ .unit u) (b : List Act) : reported (a :: b) = reported b := by
  cases a with
  | unit u => exact absurd rfl (h u)
  | wire | ended | timer | packet | stage => rfl

/-- A video packet, taken by the client's loop. -/
theorem clientPacket_video {c : Client} (hd : c.sink.don < 65536) (v : Video) (hv : v.Valid) (rest : List (UInt8 × Bytes))
    (h : c.data = (v.ch, v.rtp.encode) :: rest) :
    ∃ sink, clientPacket c = .ok { c with data := rest, sink := sink, trace := (sink.units.map .unit).reverse ++ .packet v.ch v.rtp.encode :: c.trace } ∧
      sink.units.map shown = v.load.units (keptIn c.sink) v.rtp.ts ∧ keptIn sink = v.load.kept (keptIn c.sink) := by
  obtain ⟨q, hq, hf⟩ := C23_unpack v.rtp hv.rtp
  have hts := hf.2.2.2.2.2.2.1
  have hpl := hf.2.2.2.2.2.2.2.2.2.2.2
  obtain ⟨sink, h1, h2, h3⟩ := push_load c.sink hd v.load hv.load hv.start hv.body v.rtp.ts
  refine ⟨sink, ?_, h2, h3⟩
  unfold clientPacket
  rw [h]
  dsimp only
  rw [if_pos hv.even, hq]
  dsimp only
  rw [hpl, hts, h1]
  rfl

/-- C66, one packet: when the client's loop takes a packet with a single unit, an aggregate or a fragment, it reports exactly the units that
are complete with it and goes on. The data of a fragmented unit is what was kept since the last start fragment; see `C66_pipeline_partial`
for what that is. Missing for the full claim: padded packets, payloads with `00 00 01`, aggregates of units with `00 00 03`, MTAP24, units of 65534 and 65535
bytes in aggregates (all refuted, see below and C15-C17, C23). -/
theorem C66_packet_partial (w : World) (c : Client) (hr : ClientReachable w c) (hne : c.ended = false) (v : Video) (hv : v.Valid)
    (rest : List (UInt8 × Bytes)) (h : c.data = (v.ch, v.rtp.encode) :: rest) :
    ∃ c', cstep w c .packet = .ok c' ∧ c'.ended = false ∧ c'.data = rest ∧
      reported c'.trace = reported c.trace ++ v.load.units (keptIn c.sink) v.rtp.ts ∧ seen c'.trace = seen c.trace ++ [(v.ch, v.rtp.encode)] := by
  obtain ⟨sink, h1, h2, _⟩ := clientPacket_video (client_tinv hr).don v hv rest h
  refine ⟨{ c with data := rest, sink := sink, trace := (sink.units.map .unit).reverse ++ .packet v.ch v.rtp.encode :: c.trace }, ?_, hne, rfl, ?_, ?_⟩
  · unfold cstep
    rw [if_neg (by rw [hne]; decide)]
    exact h1
  · show reported ((sink.units.map Act.unit).reverse ++ _) = _
    rw [reported_units, h2]
    rfl
  · show seen ((sink.units.map Act.unit).reverse ++ _) = _
    rw [seen_frees]
    · rfl
    · intro a ha ch p e; rw [List.mem_reverse, List.mem_map] at ha; obtain ⟨u, _, rfl⟩ := ha; cases e

/-- Packets that carry units. -/
def AllVideo (ps : List (UInt8 × Bytes)) (vs : List Video) : Prop :=
  ps = vs.map (fun v => (v.ch, v.rtp.encode)) ∧ ∀ v ∈ vs, v.Valid

/-- The invariant. -/
def PInv (c : Client) : Prop := ∀ vs, AllVideo (onVideo (seen c.trace)) vs → reported c.trace = depacketize [] vs ∧ keptIn c.sink = keptAfter [] vs

theorem onVideo_snoc_even {ps : List (UInt8 × Bytes)} {ch : UInt8} {p : Bytes} (h : ch % 2 = 0) : onVideo (ps ++ [(ch, p)]) = onVideo ps ++ [(ch, p)] := by
  simp [onVideo, h]

theorem onVideo_snoc_odd {ps : List (UInt8 × Bytes)} {ch : UInt8} {p : Bytes} (h : ¬ ch % 2 = 0) : onVideo (ps ++ [(ch, p)]) = onVideo ps := by
  simp [onVideo, h]

theorem AllVideo.snoc {ps : List (UInt8 × Bytes)} {x : UInt8 × Bytes} {vs : List Video} (h : AllVideo (ps ++ [x]) vs) :
    ∃ us v, vs = us ++ [v] ∧ AllVideo ps us ∧ x = (v.ch, v.rtp.encode) ∧ v.Valid := by
  obtain ⟨h1, h2⟩ := h
  rcases List.eq_nil_or_concat vs with rfl | ⟨us, v, rfl⟩
  · simp at h1
  · rw [List.concat_eq_append] at h1 h2 ⊢
    rw [List.map_append, List.map_cons, List.map_nil] at h1
    obtain ⟨h3, h4⟩ := List.append_inj' h1 rfl
    injection h4 with h4
    exact ⟨us, v, rfl, ⟨h3, fun v hv => h2 v (by simp [hv])⟩, h4, h2 v (by simp)⟩

/-- Steps that take no packet. -/
theorem PInv.of_trace {c c' : Client} (h : PInv c) (h1 : seen c'.trace = seen c.trace) (h2 : reported c'.trace = reported c.trace) (h3 : c'.sink = c.sink) : PInv c' := by
  intro vs hvs
  rw [h1] at hvs
  rw [h2, h3]
  exact h vs hvs

theorem adopt_seen (c : Client) (s : Sess) : seen (c.adopt s).trace = seen c.trace ∧ reported (c.adopt s).trace = reported c.trace := by
  unfold Client.adopt
  dsimp only
  generalize added c.sess s = o
  constructor
  · exact seen_frees (fun a ha ch p e => by obtain ⟨x, _, rfl⟩ := List.mem_map.1 ha; cases e) _
  · induction o with
    | nil => rfl
    | cons x o ih => exact ih

theorem order_seen {c c' : Client} {r : Go (Sess × Option SErr)} (h : c.order r = .ok c') :
    seen c'.trace = seen c.trace ∧ reported c'.trace = reported c.trace ∧ c'.sink = c.sink := by
  unfold Client.order at h
  split at h
  · cases h
  · injection h with h; subst h; exact ⟨(adopt_seen c _).1, (adopt_seen c _).2, rfl⟩
  · injection h with h; subst h; exact ⟨(adopt_seen c _).1, (adopt_seen c _).2, rfl⟩

theorem cstep_pinv {w : World} {c c' : Client} {e : CEv} (hd : c.sink.don < 65536) (hi : PInv c) (h : cstep w c e = .ok c') : PInv c' := by
  unfold cstep at h
  split at h
  · injection h with h; subst h; exact hi
  · cases e with
    | read =>
      dsimp only at h
      unfold clientRead at h
      split at h
      · split at h
        · injection h with h; subst h; exact hi
        · injection h with h; subst h; exact hi
        · split at h
          · cases h
          · injection h with h; subst h
            exact hi.of_trace (adopt_seen _ _).1 (adopt_seen _ _).2 rfl
      · injection h with h; subst h; exact hi
    | timer =>
      dsimp only at h
      unfold clientTimer at h
      split at h
      · dsimp only at h
        split at h
        · obtain ⟨h1, h2, h3⟩ := order_seen h; exact hi.of_trace h1 h2 h3
        · split at h
          · obtain ⟨h1, h2, h3⟩ := order_seen h; exact hi.of_trace h1 h2 h3
          · split at h
            · injection h with h; subst h; exact hi.of_trace rfl rfl rfl
            · injection h with h; subst h; exact hi.of_trace rfl rfl rfl
      · injection h with h; subst h; exact hi
    | stage =>
      dsimp only at h
      unfold clientStage at h
      split at h
      · injection h with h; subst h; exact hi
      · dsimp only at h
        split at h
        · obtain ⟨h1, h2, h3⟩ := order_seen h; exact hi.of_trace h1 h2 h3
        · split at h
          · injection h with h; subst h; exact hi.of_trace rfl rfl rfl
          · split at h
            · injection h with h; subst h; exact hi.of_trace rfl rfl rfl
            · split at h
              · injection h with h; subst h; exact hi.of_trace rfl rfl rfl
              · injection h with h; subst h; exact hi.of_trace rfl rfl rfl
    | expire =>
      injection h with h; subst h
      split
      · exact hi.of_trace rfl rfl rfl
      · exact hi
    | packet =>
      dsimp only at h
      cases hdata : c.data with
      | nil => unfold clientPacket at h; rw [hdata] at h; injection h with h; subst h; exact hi
      | cons x rest =>
        obtain ⟨ch, payload⟩ := x
        by_cases hev : ch % 2 = 0
        · intro vs hvs
          have hseen : seen c'.trace = seen c.trace ++ [(ch, payload)] := by
            unfold clientPacket at h
            rw [hdata] at h
            dsimp only at h
            rw [if_pos hev] at h
            split at h
            · cases h
            · injection h with h; subst h; rfl
            · split at h
              · cases h
              · injection h with h; subst h; rfl
              · injection h with h; subst h
                exact seen_frees (fun a ha ch p e => by rw [List.mem_reverse, List.mem_map] at ha; obtain ⟨u, _, rfl⟩ := ha; cases e) _
          rw [hseen, onVideo_snoc_even hev] at hvs
          obtain ⟨us, v, rfl, hus, hx, hv⟩ := hvs.snoc
          injection hx with hx1 hx2
          subst hx1 hx2
          obtain ⟨sink, h1, h2, h3⟩ := clientPacket_video hd v hv rest hdata
          rw [h] at h1
          injection h1 with h1
          subst h1
          obtain ⟨i1, i2⟩ := hi us hus
          constructor
          · show reported ((sink.units.map Act.unit).reverse ++ _) = _
            rw [reported_units, h2, i2, depacketize_append, ← i1]
            simp [depacketize, reported]
          · show keptIn sink = _
            rw [h3, i2, keptAfter_append]
            rfl
        · unfold clientPacket at h
          rw [hdata] at h
          dsimp only at h
          rw [if_neg hev] at h
          have key : ∀ t, seen t = seen c.trace ++ [(ch, payload)] → onVideo (seen t) = onVideo (seen c.trace) := by
            intro t ht; rw [ht, onVideo_snoc_odd hev]
          split at h
          · cases h
          · injection h with h; subst h
            intro vs hvs
            rw [key _ rfl] at hvs
            exact hi vs hvs
          · injection h with h; subst h
            intro vs hvs
            rw [key _ rfl] at hvs
            exact hi vs hvs

theorem client_pinv {w : World} {c : Client} (h : ClientReachable w c) : PInv c := by
  obtain ⟨uri, user, rdr, n, c0, es, h1, h2⟩ := h
  have h0 : PInv c0 := by
    obtain ⟨b, hb, _, h1, _⟩ := early_before h1
    obtain ⟨i1, i2, i3⟩ := order_seen h1
    obtain ⟨k1, k2, _⟩ := acts_seen hb.acts
    intro vs hvs
    rw [i1, k1] at hvs
    have : vs = [] := by simpa [AllVideo, onVideo, seen] using hvs.1
    subst this
    rw [i2, i3, k2, hb.sink]
    exact ⟨rfl, rfl⟩
  have hr0 : ClientReachable w c0 := ⟨uri, user, rdr, n, c0, [], h1, rfl⟩
  clear h1
  induction es generalizing c0 with
  | nil => injection h2 with h2; subst h2; exact h0
  | cons e es ih =>
    unfold csteps at h2
    cases hs : cstep w c0 e with
    | error p => rw [hs] at h2; cases h2
    | ok d =>
      rw [hs] at h2
      obtain ⟨uri', user', rdr', n', c0', es', j1, j2⟩ := hr0
      have hrd : ClientReachable w d := by
        refine ⟨uri', user', rdr', n', c0', es' ++ [e], j1, ?_⟩
        clear j1 h0
        induction es' generalizing c0' with
        | nil => injection j2 with j2; subst j2; show (match cstep w c0' e with | .error p => _ | .ok c => csteps w c []) = _; rw [hs]; rfl
        | cons x es' ih' =>
          unfold csteps at j2
          rw [List.cons_append]
          unfold csteps
          cases hx : cstep w c0' x with
          | error p => rw [hx] at j2; cases j2
          | ok y => rw [hx] at j2; exact ih' y j2
      exact ih d h2 (cstep_pinv (client_tinv ⟨uri', user', rdr', n', c0', es', j1, j2⟩).don h0 hs) hrd

/-- C66, a whole run: if the bodies of all video packets the client's loop has taken so far (unpadded packets: their payloads) are single units, aggregates or
fragments, then the units it has reported are exactly those of the packets, in order, each with its packet's timestamp, fragmented units
put together. This for every schedule and whatever else is received. Missing: see `C66_packet_partial`. -/
theorem C66_pipeline_partial (w : World) (c : Client) (hr : ClientReachable w c) (vs : List Video) (h : AllVideo (onVideo (seen c.trace)) vs) :
    reported c.trace = depacketize [] vs :=
  (client_pinv hr vs h).1

/-- C66: the loop takes the frames in the order in which they were read from the connection; none is lost or made up. -/
theorem C66_fifo (w : World) (c : Client) (hr : ClientReachable w c) : seen c.trace ++ c.data = framesRead c.trace :=
  (client_tinv hr).fifo

/-- A unit in two fragments, an aggregate and a single unit. -/
def demoVideo : List Video := [
  ⟨0, ⟨false, false, 96, 1, 90, 7, [], none, fuA 0x65 true false [1, 2]⟩, .fuA 0x65 true false [1, 2]⟩,
  ⟨0, ⟨false, true, 96, 2, 90, 7, [], none, fuA 0x65 false true [3]⟩, .fuA 0x65 false true [3]⟩,
  ⟨0, ⟨false, false, 96, 3, 180, 7, [], none, stapA 0x60 [⟨0x67, [0x42]⟩, ⟨0x68, [0xce]⟩]⟩, .stapA 0x60 [⟨0x67, [0x42]⟩, ⟨0x68, [0xce]⟩]⟩,
  ⟨0, ⟨false, false, 96, 4, 270, 7, [], none, [0x41, 9]⟩, .single ⟨0x41, [9]⟩⟩]

theorem demoVideo_valid : ∀ v ∈ demoVideo, v.Valid := by
  intro v hv
  simp only [demoVideo, List.mem_cons, List.not_mem_nil, or_false] at hv
  have rtp : ∀ (m : Bool) (sn ts : Nat) (body : List UInt8), sn < 65536 → ts < 2 ^ 32 → RtpWire.Valid ⟨false, m, 96, sn, ts, 7, [], none, body⟩ :=
    fun m sn ts body h1 h2 => ⟨show 96 < 128 by decide, h1, h2, show 7 < 2 ^ 32 by decide, show 0 ≤ 15 by decide, fun c hc => by (cases hc), fun e he => by (cases he)⟩
  rcases hv with rfl | rfl | rfl | rfl
  · exact ⟨rfl, rtp _ _ _ _ (by decide) (by decide), by decide, by decide, (by decide : (0x65 : UInt8) &&& 0x80 = 0)⟩
  · exact ⟨rfl, rtp _ _ _ _ (by decide) (by decide), by decide, by decide, (by decide : (0x65 : UInt8) &&& 0x80 = 0)⟩
  · refine ⟨rfl, rtp _ _ _ _ (by decide) (by decide), by decide, by decide, ?_⟩
    intro u hu
    simp only [List.mem_cons, List.not_mem_nil, or_false] at hu
    rcases hu with rfl | rfl <;> decide
  · exact ⟨rfl, rtp _ _ _ _ (by decide) (by decide), by decide, by decide, (by decide : (0x41 : UInt8) &&& 0x1F ∉ [24, 25, 26, 27, 28, 29])⟩

/-- A client that has taken these packets. -/
example : ∃ c, ClientReachable demoWorld c ∧ AllVideo (onVideo (seen c.trace)) demoVideo ∧
    depacketize [] demoVideo = [(0x65, 90, [1, 2, 3]), (0x67, 180, [0x42]), (0x68, 180, [0xce]), (0x41, 270, [9])] := by
  obtain ⟨c, h1, h2⟩ := demoClient_shows (frames := demoVideo.map (·.rtp.encode)) (es := demoPlay ++ demoFrame ++ demoFrame ++ demoFrame ++ demoFrame)
    (f := fun c => onVideo (seen c.trace)) (a := demoVideo.map fun v => (v.ch, v.rtp.encode)) (by decide +kernel)
  exact ⟨c, h1, ⟨h2, demoVideo_valid⟩, by decide⟩

/-- A client about to take the first of them. -/
example : ∃ c, ClientReachable demoWorld c ∧ (c.ended, c.data) = (false, [(0, (demoVideo.map (·.rtp.encode)).headD [])]) :=
  demoClient_shows (frames := demoVideo.map (·.rtp.encode)) (es := demoPlay ++ [.read]) (by decide +kernel)

/-- The padded packet, and the aggregate. -/
def demoPadded : RtpWire := ⟨true, false, 96, 4, 270, 7, [], none, [0x41, 9, 0, 2]⟩
def demoStap : RtpWire := ⟨false, false, 96, 4, 270, 7, [], none, stapA 0x60 [⟨0x67, [0x42, 0, 0, 3, 1]⟩]⟩

theorem demoPadded_valid : demoPadded.Valid :=
  ⟨show 96 < 128 by decide, show 4 < 65536 by decide, show 270 < 2 ^ 32 by decide, show 7 < 2 ^ 32 by decide, show 0 ≤ 15 by decide,
    fun c hc => by (cases hc), fun e he => by (cases he)⟩

theorem demoStap_valid : demoStap.Valid :=
  ⟨show 96 < 128 by decide, show 4 < 65536 by decide, show 270 < 2 ^ 32 by decide, show 7 < 2 ^ 32 by decide, show 0 ≤ 15 by decide,
    fun c hc => by (cases hc), fun e he => by (cases he)⟩

/-- C66 refuted: the padding of an RTP packet is reported as part of the unit. -/
theorem C66_padding_refuted : ∃ (p : RtpWire) (c : Client), p.Valid ∧ p.payload = [0x41, 9] ∧ ClientReachable demoWorld c ∧ seen c.trace = [(0, p.encode)] ∧
    reported c.trace = [(0x41, 270, [9, 0, 2])] := by
  obtain ⟨c, h1, h2⟩ := demoClient_shows (frames := [demoPadded.encode]) (es := demoPlay ++ demoFrame)
    (f := fun c => (seen c.trace, reported c.trace)) (a := ([(0, demoPadded.encode)], [(0x41, 270, [9, 0, 2])])) (by decide +kernel)
  injection h2 with h2 h3
  exact ⟨_, c, demoPadded_valid, by decide, h1, h2, h3⟩

/-- Whether the last thing the client did was to end on a bad packet. -/
def endsBad : List Act → Bool
  | .ended .badPacket :: _ => true
  | _ => false

/-- C66 refuted: an aggregate with a unit that contains `00 00 03`, as any unit may, ends the client. -/
theorem C66_emulation_refuted : ∃ (p : RtpWire) (us : List Nal) (c : Client), p.Valid ∧ p.padding = false ∧ p.body = stapA 0x60 us ∧ (∀ u ∈ us, u.size ≤ 65533) ∧
    ClientReachable demoWorld c ∧ c.trace.head? = some (.ended .badPacket) ∧ seen c.trace = [(0, p.encode)] ∧ reported c.trace = [] := by
  obtain ⟨c, h1, h2⟩ := demoClient_shows (frames := [demoStap.encode]) (es := demoPlay ++ demoFrame)
    (f := fun c => ((endsBad c.trace, (reported c.trace).length), seen c.trace)) (a := ((true, 0), [(0, demoStap.encode)])) (by decide +kernel)
  injection h2 with h2 h3
  injection h2 with h2 h4
  refine ⟨demoStap, [⟨0x67, [0x42, 0, 0, 3, 1]⟩], c, demoStap_valid, rfl, rfl, ?_, h1, ?_, h3, List.length_eq_zero_iff.1 h4⟩
  · intro u hu; rw [List.mem_singleton] at hu; subst hu; decide
  · generalize c.trace = t at h2
    unfold endsBad at h2
    split at h2
    · rfl
    · cases h2

end Ouro
