import Verif.Lemmas.Dialogue2
/-! # C84: the client and a server that grants its requests -/
namespace Ouro
open Spec

/-- C84: with a server that grants every request, perhaps after asking for credentials, the client of the command line plays, pauses, closes and
finishes by itself, in every order of events in which each side gets its turn again and again, however many packets that can be used and
however many expired read deadlines come in between. It may ask for credentials for every request that has none, and for any finite number of
the first requests even if they have some, for instance because the nonce is stale. Missing for the full claim, and false: a description
without video (`C84_audio_refuted`) or longer than 2048 bytes, parameter sets that the parser refuses (`C84_pps_refuted`), and credentials
asked for the SETUP of several streams (`C84_setup_refuted`). -/
theorem C84_finishes_partial (w : World) (hw : ∀ o b, w.write o b = .ok) (uri : Bytes) (tm : Terms) (srv : Nat → Request → Sent)
    (hsrv : ∀ k req, 0 < req.cseq → Cooperates w tm k req (srv k req)) (sched : Nat → DEv) (hfair : Fair sched) (hframes : ∀ n ch p, sched n = .frame ch p → UsableFrame ch p) :
    ∃ d0 n d, dopen w uri tm.user = .ok d0 ∧ drun w srv d0 sched n = .ok d ∧ d.client.ended = true ∧ milestones d.client.trace = course := by
  obtain ⟨d0, q, h1, h2⟩ := dopen_inv hw uri tm
  obtain ⟨n, d, h3, h4⟩ := dialogue_ends hw hsrv hfair hframes d0 _ 0 d0 _ _ _ _ rfl h2 rfl
  exact ⟨d0, n, d, h1, h3, h4.1, h4.2⟩

/-- A server for the examples: it grants everything, and asks for credentials first if told so, for requests with the verbs given. -/
def demoReply (verbs : List Bytes) (stale : Nat) (sdp : Bytes) (k : Nat) (req : Request) : Sent :=
  if req.verb ∈ verbs ∧ (req.auth = [] ∨ k < stale) then
    ⟨401, b!"Unauthorized", [⟨b!"CSeq", b!" ", itoa req.cseq⟩, ⟨b!"WWW-Authenticate", b!" ", b!"Digest realm=\"r\",nonce=\"n\""⟩], []⟩
  else if req.verb = b!"DESCRIBE" then ⟨200, b!"OK", [⟨b!"CSeq", b!" ", itoa req.cseq⟩, ⟨b!"Content-Length", b!" ", natDigits sdp.length⟩], sdp⟩
  else ⟨200, b!"OK", [⟨b!"CSeq", b!" ", itoa req.cseq⟩, ⟨b!"Transport", b!" ", b!"RTP/AVP/TCP;interleaved=0-1"⟩], []⟩

/-- Everything in turn, with a sender report now and then. -/
def demoSched (n : Nat) : DEv :=
  match n % 8 with
  | 0 => .answer
  | 1 => .client .read
  | 2 => .client .expire
  | 3 => .client .timer
  | 4 => .client .stage
  | 5 => .client .packet
  | 6 => .quiet
  | _ => .frame 1 [0x80, 201, 0, 1, 0, 0, 0, 5]

theorem demoSched_add (n k : Nat) : demoSched (8 * n + k) = demoSched k := by
  unfold demoSched; rw [Nat.mul_add_mod]

theorem demoSched_fair : Fair demoSched := by
  have key : ∀ k n, ∃ m, n ≤ m ∧ demoSched m = demoSched k := fun k n => ⟨8 * n + k, by omega, demoSched_add n k⟩
  refine ⟨fun e n => ?_, key 0⟩
  cases e with
  | read => exact key 1 n
  | expire => exact key 2 n
  | timer => exact key 3 n
  | stage => exact key 4 n
  | packet => exact key 5 n

theorem demoSched_frames (n : Nat) (ch : UInt8) (p : Bytes) (h : demoSched n = .frame ch p) : UsableFrame ch p := by
  unfold demoSched at h
  split at h
  all_goals first | (cases h; done) | skip
  injection h with h1 h2
  subst h1 h2
  exact ⟨by decide, .inr (.inr ⟨by decide, 0x80, 201, 0, 1, [0, 0, 0, 5], by decide, by decide, rfl⟩)⟩

theorem natDigits_text (n : Nat) : IsText (natDigits n) := by
  have vis : ∀ c ∈ natDigits n, visible c = true ∧ c ≠ 10 := by
    intro c hc
    have h := natDigits_digit n c hc
    revert h
    unfold isDigit visible
    intro h
    have h : 48 ≤ c ∧ c ≤ 57 := by simpa using h
    rw [UInt8.le_iff_toNat_le, UInt8.le_iff_toNat_le] at h
    have h48 : (48 : UInt8).toNat = 48 := rfl
    have h57 : (57 : UInt8).toNat = 57 := rfl
    rw [h48, h57] at h
    refine ⟨?_, fun e => by (rw [e] at h; have := h.1; revert this; decide)⟩
    have : 33 ≤ c ∧ c ≤ 126 := by
      rw [UInt8.le_iff_toNat_le, UInt8.le_iff_toNat_le]
      exact ⟨Nat.le_trans (by decide) h.1, Nat.le_trans h.2 (by decide)⟩
    simpa using this
  exact ⟨fun h => (vis _ h).2 rfl, fun a ha => (vis a (List.mem_of_mem_head? ha)).1, fun z hz => (vis z (List.mem_of_mem_getLast? hz)).1⟩

theorem itoa_text {z : Int} (h : 0 < z) : IsText (itoa z) := by
  obtain ⟨n, rfl⟩ : ∃ n : Nat, z = n := ⟨z.toNat, by omega⟩
  rw [itoa_nat]; exact natDigits_text n

theorem text_of {s : Bytes} (h : (s.all fun c => c != 10) = true) (h1 : (s.head?.all visible) = true) (h2 : (s.getLast?.all visible) = true) : IsText s := by
  refine ⟨fun hm => ?_, fun a ha => ?_, fun z hz => ?_⟩
  · have := List.all_eq_true.1 h _ hm; revert this; decide
  · rw [ha] at h1; exact h1
  · rw [hz] at h2; exact h2

theorem header_wf {name value : Bytes} (h1 : name ≠ []) (h2 : ∀ c ∈ name, isToken c = true) (h3 : IsText value) : (⟨name, b!" ", value⟩ : SentHeader).WF :=
  ⟨⟨h1, h2⟩, (show ∀ c ∈ b!" ", c = 32 ∨ c = 9 by decide), h3⟩

theorem demo_texts : IsText b!"OK" ∧ IsText b!"Unauthorized" ∧ IsText b!"RTP/AVP/TCP;interleaved=0-1" ∧ IsText b!"Digest realm=\"r\",nonce=\"n\"" :=
  ⟨text_of (by decide) (by decide) (by decide), text_of (by decide) (by decide) (by decide), text_of (by decide) (by decide) (by decide), text_of (by decide) (by decide) (by decide)⟩

theorem demo_challenge : Challenge b!"Digest realm=\"r\",nonce=\"n\"" := by
  refine ⟨false, [⟨.realm, b!"realm", b!"r", [], true, [], []⟩, ⟨.nonce, b!"nonce", b!"n", [], true, [], []⟩], by simp, ?_, ?_, by decide, by decide⟩
  · intro p hp
    rcases List.mem_cons.1 hp with rfl | hp
    · exact ⟨by decide, by decide, by decide, by decide, by decide, by decide⟩
    · rw [List.mem_singleton] at hp; subst hp
      exact ⟨by decide, by decide, by decide, by decide, by decide, by decide⟩
  · intro p hp; injection hp with hp; subst hp; rfl

theorem demoReply_cooperates {w : World} {tm : Terms} {verbs : List Bytes} (hu : verbs ≠ [] → tm.user ≠ none) (ho : b!"SETUP" ∈ verbs → tm.one = true) {sdp : Bytes}
    (hs : Describes w tm.one sdp) (hl : sdp.length ≤ 2048) (k : Nat) (req : Request) (hr : 0 < req.cseq) : Cooperates w tm k req (demoReply verbs tm.patience sdp k req) := by
  unfold demoReply
  have hcw : (⟨b!"CSeq", b!" ", itoa req.cseq⟩ : SentHeader).WF := header_wf (by decide) (by decide) (itoa_text hr)
  have two : ∀ h : SentHeader, h.WF → ∀ x ∈ [⟨b!"CSeq", b!" ", itoa req.cseq⟩, h], x.WF := by
    intro h hh x hx
    rcases List.mem_cons.1 hx with rfl | hx
    · exact hcw
    · rw [List.mem_singleton] at hx; subst hx; exact hh
  split
  · next h =>
    exact ⟨⟨(show 100 ≤ 401 ∧ 401 ≤ 999 by decide), demo_texts.2.1, two _ (header_wf (by decide) (by decide) demo_texts.2.2.2), .inr ⟨rfl, rfl⟩⟩, Nat.zero_le _, rfl,
      .inr ⟨rfl, fun hv => ho (by rw [← hv]; exact h.1), h.2, hu (List.ne_nil_of_mem h.1), b!"Digest realm=\"r\",nonce=\"n\"", rfl, demo_challenge⟩⟩
  · split
    · next hv =>
      exact ⟨⟨(show 100 ≤ 200 ∧ 200 ≤ 999 by decide), demo_texts.1, two _ (header_wf (by decide) (by decide) (natDigits_text _)), .inl rfl⟩, hl, rfl,
        .inl ⟨rfl, fun _ => hs, fun h => by (rw [hv] at h; exact absurd h (by decide))⟩⟩
    · next hv =>
      refine ⟨⟨(show 100 ≤ 200 ∧ 200 ≤ 999 by decide), demo_texts.1, two _ (header_wf (by decide) (by decide) demo_texts.2.2.1), .inr ⟨rfl, rfl⟩⟩, Nat.zero_le _, rfl,
        .inl ⟨rfl, fun h => absurd h hv, fun h => ⟨[⟨b!"interleaved", .interleaved ⟨0, some 1⟩⟩], fun i hi => ?_, rfl⟩⟩⟩
      rw [List.mem_singleton] at hi; subst hi
      refine ⟨by decide, (by decide : (0 : Nat) < 2 ^ 63), fun h hh => ?_⟩
      injection hh with hh; subst hh
      exact (by decide : (1 : Nat) < 2 ^ 63)

/-- Whether a description is one the client can work with. -/
def describes (w : World) (one : Bool) (body : Bytes) : Bool :=
  match sdpParse body with
  | .error _ => false
  | .ok ms => !ms.isEmpty && (!one || decide (ms.length = 1)) && decide (ms.length < 2 ^ 60) && ms.all fun m =>
    match spropLoop w.inf newParameterSets m.spropParameterSets with
    | .ok (_, none) => true
    | _ => false

theorem describes_iff {w : World} {one : Bool} {body : Bytes} (h : describes w one body = true) : Describes w one body := by
  unfold describes at h
  split at h
  · cases h
  · next ms hms =>
    rw [Bool.and_eq_true, Bool.and_eq_true, Bool.and_eq_true, decide_eq_true_iff] at h
    obtain ⟨⟨⟨h1, h0⟩, h2⟩, h3⟩ := h
    refine ⟨ms, hms, by intro e; rw [e] at h1; exact absurd h1 (by decide), fun h => by (rw [h] at h0; simpa using h0), h2, fun m hm => ?_⟩
    have := List.all_eq_true.1 h3 m hm
    split at this
    · next x hx => exact ⟨x, hx⟩
    · cases this

/-- A stream with parameter sets and a stream without. -/
def demoVideos : Bytes := b!"v=0\r\nm=video 0 RTP/AVP 96\r\na=rtpmap:96 H264/90000\r\na=fmtp:96 packetization-mode=1;sprop-parameter-sets=Z0IACpZTBYmI\r\na=control:v\r\nm=video 0 RTP/AVP 97\r\na=control:w\r\n"

theorem demoVideos_describes : Describes demoWorld false demoVideos := describes_iff (by decide +kernel)

/-- One stream. -/
def demoVideo1 : Bytes := b!"v=0\r\nm=video 0 RTP/AVP 96\r\na=rtpmap:96 H264/90000\r\na=fmtp:96 packetization-mode=1;sprop-parameter-sets=Z0IACpZTBYmI\r\na=control:v\r\n"

theorem demoVideo1_describes : Describes demoWorld true demoVideo1 := describes_iff (by decide +kernel)

/-- The theorem applies: two streams, of which one has parameter sets; OPTIONS is answered with a challenge; reports arrive all the time. -/
example : ∃ d0 n d, dopen demoWorld b!"rtsp://h/x" (some (b!"u", b!"p")) = .ok d0 ∧ drun demoWorld (demoReply [b!"OPTIONS"] 0 demoVideos) d0 demoSched n = .ok d ∧ d.client.ended = true ∧
    milestones d.client.trace = course :=
  C84_finishes_partial demoWorld (fun _ _ => rfl) _ ⟨some (b!"u", b!"p"), false, 0⟩ _ (demoReply_cooperates (fun _ => by simp) (by decide) demoVideos_describes (by decide +kernel)) demoSched demoSched_fair demoSched_frames

/-- One stream; DESCRIBE, SETUP and PLAY are answered with a challenge, those among the first ten requests even with credentials. -/
example : ∃ d0 n d, dopen demoWorld b!"rtsp://h/x" (some (b!"u", b!"p")) = .ok d0 ∧ drun demoWorld (demoReply [b!"DESCRIBE", b!"SETUP", b!"PLAY"] 10 demoVideo1) d0 demoSched n = .ok d ∧ d.client.ended = true ∧
    milestones d.client.trace = course :=
  C84_finishes_partial demoWorld (fun _ _ => rfl) _ ⟨some (b!"u", b!"p"), true, 10⟩ _ (demoReply_cooperates (fun _ => by simp) (fun _ => rfl) demoVideo1_describes (by decide +kernel)) demoSched demoSched_fair demoSched_frames

/-- Everything in turn, and no packets. -/
def demoTurns (n : Nat) : DEv :=
  match n % 6 with
  | 0 => .answer
  | 1 => .client .read
  | 2 => .client .expire
  | 3 => .client .timer
  | 4 => .client .stage
  | _ => .client .packet

theorem demoTurns_fair : Fair demoTurns := by
  have key : ∀ k n, ∃ m, n ≤ m ∧ demoTurns m = demoTurns k := fun k n => ⟨6 * n + k, by omega, by unfold demoTurns; rw [Nat.mul_add_mod]⟩
  refine ⟨fun e n => ?_, key 0⟩
  cases e with
  | read => exact key 1 n
  | expire => exact key 2 n
  | timer => exact key 3 n
  | stage => exact key 4 n
  | packet => exact key 5 n

/-- Nothing is left to do: nothing has arrived, or the client no longer reads; no request is unanswered; no timer is running. -/
def stuck (d : Dialogue) : Bool :=
  !d.client.ended && (!d.client.running || (d.client.rdr.buf.isEmpty && d.client.rdr.net.isEmpty && d.client.rdr.err.isNone)) && d.client.states.isEmpty && d.client.data.isEmpty && !d.client.armed &&
    !d.client.fired && (asked d.client.trace)[d.answered]?.isNone

theorem stuck_step {w : World} {srv : Nat → Request → Sent} {d : Dialogue} (h : stuck d = true) {e : DEv} (he : (∃ c, e = .client c) ∨ e = .answer) :
    ∃ d', dstep w srv d e = .ok d' ∧ stuck d' = true ∧ d'.client.trace = d.client.trace := by
  have h0 := h
  unfold stuck at h
  simp only [Bool.and_eq_true, Bool.or_eq_true, Bool.not_eq_true', List.isEmpty_iff, Option.isNone_iff_eq_none] at h
  obtain ⟨⟨⟨⟨⟨⟨h1, h2⟩, h6⟩, h7⟩, h8⟩, h9⟩, h10⟩ := h
  rcases he with ⟨c, rfl⟩ | rfl
  · by_cases hc : c = .read
    · subst hc
      by_cases hr : d.client.running = true
      · have h2 : d.client.rdr.buf = [] ∧ d.client.rdr.net = [] ∧ d.client.rdr.err = none := by
          rcases h2 with h2 | ⟨⟨g1, g2⟩, g3⟩
          · rw [h2] at hr; cases hr
          · exact ⟨g1, g2, g3⟩
        obtain ⟨g1, g2, g3⟩ := h2
        have haw : d.await .read = d.deliver [.timeout] := by unfold Dialogue.await; rw [g1, g2]; rfl
        have hrc : recv (d.deliver [.timeout]).client.rdr = (.error (.io .timeout), ⟨[], none, []⟩) := recv_timeout g3 (by rw [deliver_evs]; unfold Rdr.evs; rw [g1, g2]; rfl)
        have hs : cstep w (d.await .read).client .read = .ok { d.client with rdr := ⟨[], none, []⟩ } := by
          rw [haw]
          show (if d.client.ended = true then _ else clientRead w (d.deliver [.timeout]).client) = _
          rw [if_neg (by rw [h1]; decide)]
          unfold clientRead
          rw [if_pos ⟨hr, h6, by rw [show (d.deliver [.timeout]).client.data = [] from h7]; decide⟩, hrc]
          rfl
        refine ⟨{ d with client := { d.client with rdr := ⟨[], none, []⟩ } }, by unfold dstep; dsimp only; rw [hs], ?_, rfl⟩
        unfold stuck
        simp [h1, hr, h6, h7, h8, h9, h10]
      · have hr : d.client.running = false := by simpa using hr
        obtain ⟨d1, hd1⟩ : ∃ d1, d1 = d.await .read := ⟨_, rfl⟩
        have e1 : d1.client.ended = false ∧ d1.client.running = false ∧ d1.client.states = d.client.states ∧ d1.client.data = d.client.data ∧ d1.client.armed = d.client.armed ∧
            d1.client.fired = d.client.fired ∧ d1.client.trace = d.client.trace := by
          rw [hd1]; unfold Dialogue.await; dsimp only
          split
          · exact ⟨h1, hr, rfl, rfl, rfl, rfl, rfl⟩
          · exact ⟨h1, hr, rfl, rfl, rfl, rfl, rfl⟩
        obtain ⟨k1, k2, k3, k4, k5, k6, k7⟩ := e1
        have hs : cstep w d1.client .read = .ok d1.client := by
          unfold cstep
          rw [if_neg (by rw [k1]; decide)]
          show clientRead w d1.client = _
          unfold clientRead
          rw [if_neg (fun h => by rw [k2] at h; exact absurd h.1 (by decide))]
          rfl
        refine ⟨{ d with client := d1.client }, by unfold dstep; dsimp only; rw [← hd1, hs], ?_, k7⟩
        unfold stuck
        simp [k1, k2, k3, k4, k5, k6, k7, h6, h7, h8, h9, h10]
    · have : cstep w d.client c = .ok d.client := by
        unfold cstep
        rw [if_neg (by rw [h1]; decide)]
        cases c with
        | read => exact absurd rfl hc
        | expire => dsimp only; rw [h8]; rfl
        | timer => show clientTimer w d.client = _; unfold clientTimer; rw [h9]; rfl
        | stage => show clientStage w d.client = _; unfold clientStage; rw [h6]; rfl
        | packet => show clientPacket d.client = _; unfold clientPacket; rw [h7]; rfl
      exact ⟨d, dstep_client hc this, h0, rfl⟩
  · exact ⟨d, by unfold dstep; dsimp only; rw [h10], h0, rfl⟩

theorem stuck_run {w : World} {srv : Nat → Request → Sent} {d0 : Dialogue} {sched : Nat → DEv} (hsched : ∀ n, (∃ c, sched n = .client c) ∨ sched n = .answer) {n : Nat} {d : Dialogue}
    (h : drun w srv d0 sched n = .ok d) (hs : stuck d = true) (k : Nat) : ∃ d', drun w srv d0 sched (n + k) = .ok d' ∧ stuck d' = true ∧ d'.client.trace = d.client.trace := by
  induction k with
  | zero => exact ⟨d, h, hs, rfl⟩
  | succ k ih =>
    obtain ⟨d1, h1, h2, h3⟩ := ih
    obtain ⟨d2, g1, g2, g3⟩ := stuck_step h2 (w := w) (srv := srv) (hsched (n + k))
    refine ⟨d2, ?_, g2, g3.trans h3⟩
    show drun w srv d0 sched ((n + k) + 1) = _
    rw [drun, h1]
    exact g1

/-- Whether the dialogue gets stuck at the step given, and before nothing is reported and the client does not finish. -/
def hangs (w : World) (srv : Nat → Request → Sent) (d0 : Dialogue) (sched : Nat → DEv) (n : Nat) : Bool :=
  (List.range (n + 1)).all (fun k => match drun w srv d0 sched k with | .ok d => !d.client.ended && (milestones d.client.trace).isEmpty && (k != n || stuck d) | .error _ => false)

theorem hangs_run {w : World} {srv : Nat → Request → Sent} {d0 : Dialogue} {sched : Nat → DEv} (hsched : ∀ n, (∃ c, sched n = .client c) ∨ sched n = .answer) {n : Nat} (h : hangs w srv d0 sched n = true) (k : Nat) :
    ∃ d, drun w srv d0 sched k = .ok d ∧ d.client.ended = false ∧ milestones d.client.trace = [] := by
  unfold hangs at h
  rw [List.all_eq_true] at h
  have at_ : ∀ k, k ≤ n → ∃ d, drun w srv d0 sched k = .ok d ∧ d.client.ended = false ∧ milestones d.client.trace = [] ∧ (k = n → stuck d = true) := by
    intro k hk
    have := h k (List.mem_range.2 (by omega))
    split at this
    · next d hd =>
      simp only [Bool.and_eq_true, Bool.not_eq_true', List.isEmpty_iff, Bool.or_eq_true, bne_iff_ne] at this
      exact ⟨d, hd, this.1.1, this.1.2, fun e => this.2.resolve_left (fun h => h e)⟩
    · cases this
  by_cases hk : k ≤ n
  · obtain ⟨d, h1, h2, h3, _⟩ := at_ k hk
    exact ⟨d, h1, h2, h3⟩
  · obtain ⟨d, h1, h2, h3, h4⟩ := at_ n (Nat.le_refl n)
    obtain ⟨d', g1, g2, g3⟩ := stuck_run hsched h1 (h4 rfl) (k - n)
    rw [show n + (k - n) = k by omega] at g1
    refine ⟨d', g1, ?_, by rw [g3]; exact h3⟩
    unfold stuck at g2
    simp only [Bool.and_eq_true, Bool.not_eq_true'] at g2
    exact g2.1.1.1.1.1.1

theorem demoTurns_kind (n : Nat) : (∃ c, demoTurns n = .client c) ∨ demoTurns n = .answer := by
  unfold demoTurns
  split
  all_goals first | exact .inr rfl | exact .inl ⟨_, rfl⟩

/-- The dialogue that begins the examples. -/
def demoStart : Dialogue := (dopen demoWorld b!"rtsp://h/x" none).toOption.getD ⟨⟨⟨[], none, []⟩, newSession, true, [], [], 0, newNALSink, false, false, false, []⟩, 0⟩

theorem demoStart_open : dopen demoWorld b!"rtsp://h/x" none = .ok demoStart := by
  cases h : dopen demoWorld b!"rtsp://h/x" none with
  | error p => have : (dopen demoWorld b!"rtsp://h/x" none).toOption.isSome = true := by decide +kernel
               rw [h] at this; cases this
  | ok d => unfold demoStart; rw [h]; rfl

/-- C84 fails for a description without video: the server grants OPTIONS and DESCRIBE, the client sets up no stream, makes no further request,
and waits for ever; no error is reported. -/
theorem C84_audio_refuted : ∃ (sdp : Bytes) (d0 : Dialogue), sdp = b!"v=0\r\nm=audio 0 RTP/AVP 0\r\na=control:a\r\n" ∧ Fair demoTurns ∧
    dopen demoWorld b!"rtsp://h/x" none = .ok d0 ∧
    ∀ n, ∃ d, drun demoWorld (demoReply [] 0 sdp) d0 demoTurns n = .ok d ∧ d.client.ended = false ∧ milestones d.client.trace = [] :=
  ⟨_, demoStart, rfl, demoTurns_fair, demoStart_open, hangs_run demoTurns_kind (n := 12) (by decide +kernel)⟩

/-- It fails too for the parameter sets that RFC 3984 gives as an example (section 8.2.1): the picture parameter set has no extension, which is taken for an
error (see `C32_no_extension_refuted`); after SETUP is granted the client stops reading and waits for ever. -/
theorem C84_pps_refuted : ∃ (sdp : Bytes) (d0 : Dialogue),
    sdp = b!"v=0\r\nm=video 0 RTP/AVP 98\r\na=rtpmap:98 H264/90000\r\na=fmtp:98 packetization-mode=1;sprop-parameter-sets=Z0IACpZTBYmI,aMljiA==\r\na=control:v\r\n" ∧ Fair demoTurns ∧
    dopen demoWorld b!"rtsp://h/x" none = .ok d0 ∧
    ∀ n, ∃ d, drun demoWorld (demoReply [] 0 sdp) d0 demoTurns n = .ok d ∧ d.client.ended = false ∧ milestones d.client.trace = [] :=
  ⟨_, demoStart, rfl, demoTurns_fair, demoStart_open, hangs_run demoTurns_kind (n := 18) (by decide +kernel)⟩

/-- The dialogue of the next theorem, opened with a name and a password. -/
def demoStartU : Dialogue := (dopen demoWorld b!"rtsp://h/x" (some (b!"u", b!"p"))).toOption.getD ⟨⟨⟨[], none, []⟩, newSession, true, [], [], 0, newNALSink, false, false, false, []⟩, 0⟩

theorem demoStartU_open : dopen demoWorld b!"rtsp://h/x" (some (b!"u", b!"p")) = .ok demoStartU := by
  cases h : dopen demoWorld b!"rtsp://h/x" (some (b!"u", b!"p")) with
  | error p => have : (dopen demoWorld b!"rtsp://h/x" (some (b!"u", b!"p"))).toOption.isSome = true := by decide +kernel
               rw [h] at this; cases this
  | ok d => unfold demoStartU; rw [h]; rfl

/-- And it fails for a server that grants everything, but asks for credentials for a SETUP that has none, if there are two streams. The client sends the
two requests at once. The first is sent again under the number of the second and takes its place among those that wait, so that the second
is never sent again: the first is sent twice more. The second answer to it finds no request, and the client stops reading. The same server is fine
with one stream: `C84_finishes_partial`. -/
theorem C84_setup_refuted : ∃ d0 : Dialogue, Fair demoTurns ∧ dopen demoWorld b!"rtsp://h/x" (some (b!"u", b!"p")) = .ok d0 ∧ Describes demoWorld false demoVideos ∧
    (∀ n, ∃ d, drun demoWorld (demoReply [b!"SETUP"] 0 demoVideos) d0 demoTurns n = .ok d ∧ d.client.ended = false ∧ milestones d.client.trace = []) ∧
    ∃ d, drun demoWorld (demoReply [b!"SETUP"] 0 demoVideos) d0 demoTurns 32 = .ok d ∧ ((asked d.client.trace).filter fun q => q.verb = b!"SETUP").map (fun q => (q.cseq, q.uri)) =
      [(3, b!"rtsp://h/x/v"), (4, b!"rtsp://h/x/w"), (4, b!"rtsp://h/x/v"), (4, b!"rtsp://h/x/v")] := by
  refine ⟨demoStartU, demoTurns_fair, demoStartU_open, demoVideos_describes, hangs_run demoTurns_kind (n := 32) (by decide +kernel), ?_⟩
  cases h : drun demoWorld (demoReply [b!"SETUP"] 0 demoVideos) demoStartU demoTurns 32 with
  | error p =>
    have : (drun demoWorld (demoReply [b!"SETUP"] 0 demoVideos) demoStartU demoTurns 32).toOption.isSome = true := by decide +kernel
    rw [h] at this; cases this
  | ok d =>
    refine ⟨d, rfl, ?_⟩
    have : (drun demoWorld (demoReply [b!"SETUP"] 0 demoVideos) demoStartU demoTurns 32).toOption.map (fun d => ((asked d.client.trace).filter fun q => q.verb = b!"SETUP").map (fun q => (q.cseq, q.uri))) =
        some [(3, b!"rtsp://h/x/v"), (4, b!"rtsp://h/x/w"), (4, b!"rtsp://h/x/v"), (4, b!"rtsp://h/x/v")] := by decide +kernel
    rw [h] at this
    injection this

/-- The same server with one stream: the theorem applies. -/
example : ∃ d0 n d, dopen demoWorld b!"rtsp://h/x" (some (b!"u", b!"p")) = .ok d0 ∧ drun demoWorld (demoReply [b!"SETUP"] 0 demoVideo1) d0 demoTurns n = .ok d ∧ d.client.ended = true ∧
    milestones d.client.trace = course :=
  C84_finishes_partial demoWorld (fun _ _ => rfl) _ ⟨some (b!"u", b!"p"), true, 0⟩ _ (demoReply_cooperates (fun _ => by simp) (fun _ => rfl) demoVideo1_describes (by decide +kernel)) demoTurns demoTurns_fair
    (fun n ch p h => by (rcases demoTurns_kind n with ⟨c, e⟩ | e <;> rw [e] at h <;> cases h))

end Ouro
