import Verif.Spec.Crash
import Verif.Props.Setup
import Verif.Props.Sdp
import Verif.Props.Pps
/-! # C75: the server cannot crash the client -/
namespace Ouro
open Spec

/-- What keeps a session from panicking. -/
def Hardy (s : Sess) : Prop := (s.proto ≠ .http ∧ s.opened = true) ∧ ∀ f ∈ s.feeds, ∀ x ∈ f.media.spropParameterSets, SafeSet x

theorem callAuth_total (w : World) (s : Sess) (verb : Bytes) : ∃ a x, callAuth w s verb = .ok (a, { s with auth := x }) := by
  unfold callAuth
  cases h : s.auth with
  | none => exact ⟨[], none, by rw [show ({ s with auth := none } : Sess) = s by rw [← h]]; rfl⟩
  | some fd =>
    obtain ⟨f, d⟩ := fd
    obtain ⟨⟨a, d'⟩, h1⟩ := authCall_ok w.md5 f d verb []
    dsimp only
    rw [h1]
    exact ⟨_, _, rfl⟩

theorem writeReq_total (w : World) (s : Sess) (hp : s.proto ≠ .http) (r : Bool) (req : Request) : ∃ s' e, writeReq w s r req = .ok (s', e) := by
  unfold writeReq
  rw [if_neg hp]
  dsimp only
  split <;> exact ⟨_, _, rfl⟩

theorem command_runs (w : World) {s : Sess} (h : s.proto ≠ .http) (verb uri : Bytes) (hs : Header) : ∃ s' e, command w s verb uri hs = .ok (s', e) := by
  unfold command
  split
  · exact ⟨_, _, rfl⟩
  · obtain ⟨a, x, ha⟩ := callAuth_total w s verb
    rw [ha]
    dsimp only [enqueue]
    exact writeReq_total w _ (by exact h) _ _

theorem command_total {w : World} {s : Sess} (h : Hardy s) (verb uri : Bytes) (hs : Header) : ∃ s' e, command w s verb uri hs = .ok (s', e) ∧ Hardy s' ∧ s'.feeds = s.feeds := by
  obtain ⟨s', e, hc⟩ := command_runs w h.1.1 verb uri hs
  refine ⟨s', e, hc, ?_⟩
  rcases command_out hc with ⟨_, rfl, _⟩ | ⟨_, _, a, x, res, rfl, _⟩
  · exact ⟨h, rfl⟩
  · exact ⟨h, rfl⟩

theorem setupLoop_total {w : World} (fs : List Feed) : ∀ {done : List Feed} {s : Sess}, Hardy s → s.feeds = done ++ fs →
    ∃ s' e, setupLoop w done fs s = .ok (s', e) ∧ Hardy s' := by
  induction fs with
  | nil => intro done s h _; exact ⟨s, none, rfl, h⟩
  | cons f fs ih =>
    intro done s h hf
    obtain ⟨t, e, h1, h2, h3⟩ := command_total (w := w) h verbSetup (setupURI s.baseURI f.media.control) [(b!"Transport", f.transportHeader)]
    unfold setupLoop
    rw [h1]
    cases e with
    | some e => exact ⟨t, _, rfl, h2⟩
    | none =>
      dsimp only
      refine ih ⟨h2.1, ?_⟩ (by simp)
      intro g hg
      have hf' : ∀ g ∈ done ++ f :: fs, ∀ x ∈ g.media.spropParameterSets, SafeSet x := by rw [← hf, ← h3]; exact h2.2
      rcases List.mem_append.1 hg with hg | hg
      · exact hf' g (List.mem_append_left _ hg)
      · rcases List.mem_cons.1 hg with rfl | hg
        · exact hf' f (by simp)
        · exact hf' g (by simp [hg])

theorem spropLoop_total (inf : Nat) (bs : List Bytes) : ∀ s, (∀ x ∈ bs, SafeSet x) → ∃ r, spropLoop inf s bs = .ok r := by
  induction bs with
  | nil => intro s _; exact ⟨_, rfl⟩
  | cons b bs ih =>
    intro s h
    unfold spropLoop
    cases hp : parseSprop inf s b with
    | error p => exact absurd ⟨p, hp⟩ (h b (by simp) inf s)
    | ok r =>
      obtain ⟨e, s'⟩ := r
      rw [go_ok_bind]
      cases e with
      | some e => exact ⟨_, rfl⟩
      | none => exact ih s' (fun x hx => h x (by simp [hx]))

theorem transportSetup_total (inf : Nat) (f : Feed) (v : Bytes) (h : ∀ x ∈ f.media.spropParameterSets, SafeSet x) :
    ∃ f' e, f.transportSetup inf v = .ok (f', e) ∧ f'.media = f.media := by
  unfold Feed.transportSetup
  split
  · exact ⟨_, _, rfl, rfl⟩
  · obtain ⟨⟨s, e⟩, hr⟩ := spropLoop_total inf f.media.spropParameterSets f.sets h
    rw [hr, go_ok_bind]
    cases e with
    | some e => exact ⟨_, _, rfl, rfl⟩
    | none => exact ⟨_, _, rfl, rfl⟩

theorem addSink_hardy (w : World) {s : Sess} (h : Hardy s) (ch : UInt8) (port : Int) : Hardy (addSink w s ch port).1 ∧ (addSink w s ch port).1.feeds = s.feeds := by
  unfold addSink; split <;> exact ⟨h, rfl⟩

theorem setupAnswer_total {w : World} {rsp : Response} (fs : List Feed) : ∀ {done : List Feed} {s : Sess}, Hardy s → s.feeds = done ++ fs →
    ∃ s' e, setupAnswer w rsp done fs s = .ok (s', e) ∧ Hardy s' := by
  induction fs with
  | nil => intro done s h _; exact ⟨s, none, rfl, h⟩
  | cons f fs ih =>
    intro done s h hf
    have hsafe : ∀ g ∈ done ++ f :: fs, ∀ x ∈ g.media.spropParameterSets, SafeSet x := by rw [← hf]; exact h.2
    unfold setupAnswer
    split
    · obtain ⟨f', e, h1, h2⟩ := transportSetup_total w.inf f (rsp.header.get b!"Transport") (hsafe f (by simp))
      rw [h1]
      dsimp only
      have h' : Hardy { s with feedidx := s.feedidx + 1, feeds := done ++ f' :: fs } := by
        refine ⟨h.1, fun g hg => ?_⟩
        rcases List.mem_append.1 hg with hg | hg
        · exact hsafe g (List.mem_append_left _ hg)
        · rcases List.mem_cons.1 hg with rfl | hg
          · rw [h2]; exact hsafe f (by simp)
          · exact hsafe g (by simp [hg])
      cases e with
      | some e => exact ⟨_, _, rfl, h'⟩
      | none =>
        dsimp only
        split
        · exact ih h' (by simp)
        · have a1 := addSink_hardy w h' (UInt8.ofNat (s.feedidx + 1) * 2) f'.transp.port.one
          split
          · next s1 e1 h1 => rw [h1] at a1; exact ⟨_, _, rfl, a1.1⟩
          · next s1 h1 =>
            rw [h1] at a1
            have a2 := addSink_hardy w a1.1 (UInt8.ofNat (s.feedidx + 1) * 2 + 1) f'.transp.port.two
            split
            · next s2 e2 h2 => rw [h2] at a2; exact ⟨_, _, rfl, a2.1⟩
            · next s2 h2 =>
              rw [h2] at a2
              exact ih a2.1 (by rw [a2.2, a1.2]; simp)
    · exact ih h (by rw [hf]; simp)

theorem checkReady_hardy {s : Sess} (h : Hardy s) : Hardy (checkReady s) := by
  unfold checkReady; split <;> exact h

theorem handleSetup_total {w : World} {s : Sess} (h : Hardy s) (rsp : Response) : ∃ s' e, handleSetup w s rsp = .ok (s', e) ∧ Hardy s' := by
  unfold handleSetup
  split
  · obtain ⟨t, e, h1, h2⟩ := setupAnswer_total (w := w) (rsp := rsp) s.feeds (done := []) h rfl
    rw [h1]
    cases e with
    | some e => exact ⟨_, _, rfl, h2⟩
    | none => exact ⟨_, _, rfl, checkReady_hardy h2⟩
  · split
    · refine ⟨_, _, rfl, checkReady_hardy ?_⟩; exact h
    · exact ⟨_, _, rfl, checkReady_hardy h⟩

theorem feedsFrom_media (proto : Proto) (ms : List Media) : ∀ k, ∀ f ∈ feedsFrom proto k ms, f.media ∈ ms := by
  induction ms with
  | nil => intro k f hf; cases hf
  | cons m ms ih =>
    intro k f hf
    rcases List.mem_cons.1 hf with rfl | hf
    · exact List.mem_cons_self
    · exact List.mem_cons_of_mem _ (ih _ f hf)

theorem parseFeeds_total (proto : Proto) (body : Bytes) (h : SafeBody body) : ∃ fs, parseFeeds proto body = .ok fs ∧ ∀ f ∈ fs, ∀ x ∈ f.media.spropParameterSets, SafeSet x := by
  unfold parseFeeds
  cases hs : sdpParse body with
  | error p => exact absurd ((C37_panics_iff body).1 ⟨p, hs⟩) h.1
  | ok ms =>
    rw [go_ok_bind]
    exact ⟨_, rfl, fun f hf => h.2 ms hs f.media (feedsFrom_media proto ms 0 f hf)⟩

theorem answer_total {w : World} {s : Sess} (h : Hardy s) (verb : Bytes) (rsp : Response) (hb : ∀ body, rsp.body = some body → SafeBody body) :
    ∃ s' e, answer w s verb rsp = .ok (s', e) ∧ Hardy s' := by
  have fin : ∀ {x : Go (Sess × Option SErr)}, (∃ s' e, x = .ok (s', e) ∧ Hardy s' ∧ s'.feeds = s.feeds) → ∃ s' e, x = .ok (s', e) ∧ Hardy s' := fun h => by
    obtain ⟨s', e, h1, h2, _⟩ := h; exact ⟨s', e, h1, h2⟩
  unfold answer
  split
  · split
    · obtain ⟨s', e, h1, h2, _⟩ := command_total (w := w) (s := { s with verbs := s.verbs ++ split2 44 32 (rsp.header.get b!"Public") }) h verbDescribe s.baseURI [(b!"Accept", b!"application/sdp")]
      exact ⟨s', e, (deref_open (s := { s with verbs := s.verbs ++ split2 44 32 (rsp.header.get b!"Public") }) h.1.2).trans h1, h2⟩
    · exact ⟨_, _, rfl, h⟩
  · split
    · cases hbody : rsp.body with
      | none => exact ⟨_, _, rfl, h⟩
      | some body =>
        obtain ⟨fs, h1, h2⟩ := parseFeeds_total s.proto body (hb body hbody)
        dsimp only
        rw [h1]
        exact setupLoop_total (w := w) fs (done := []) (s := { s with feeds := fs }) ⟨h.1, h2⟩ rfl
    · split
      · refine ⟨_, _, rfl, ?_⟩; split <;> exact h
      · split
        · refine ⟨_, _, rfl, ?_⟩; split <;> exact h
        · split
          · refine ⟨_, _, rfl, ?_⟩; split <;> exact h
          · split
            · exact handleSetup_total h rsp
            · exact ⟨_, _, rfl, h⟩

theorem retry_total {w : World} {s : Sess} (h : Hardy s) (req : Request) (c : Bytes) : ∃ s' e, retry w s req c = .ok (s', e) ∧ Hardy s' := by
  have : ∃ s' e, retry w s req c = .ok (s', e) := by
    unfold retry
    have : ∃ t e, authorize w s c = .ok (t, e) := by
      unfold authorize
      cases newDigest s.baseURI c with
      | error e => exact ⟨_, _, rfl⟩
      | ok d =>
        cases s.user with
        | none => exact ⟨_, _, rfl⟩
        | some up =>
          obtain ⟨u, p⟩ := up
          obtain ⟨⟨f, d'⟩, hr⟩ := authenticate_ok w.md5 (w.rnd s.out) d u p
          dsimp only
          rw [hr]
          exact ⟨_, _, rfl⟩
    obtain ⟨t, e, ht⟩ := this
    obtain ⟨x, rfl⟩ := authorize_core ht
    rw [ht]
    cases e with
    | some e => exact ⟨_, _, rfl⟩
    | none =>
      dsimp only
      obtain ⟨a, y, ha⟩ := callAuth_total w { s with auth := x } req.verb
      rw [ha]
      dsimp only [enqueue]
      exact writeReq_total w _ (by exact h.1.1) _ _
  obtain ⟨s', e, hr⟩ := this
  refine ⟨s', e, hr, ?_⟩
  rcases retry_out hr with ⟨x, rfl, _⟩ | ⟨a, x, res, rfl, _⟩ <;> exact h

theorem step_open_total (w : World) (s : Sess) (uri : Bytes) (proto : Proto) (user : Option (Bytes × Bytes)) (hop : SafeOp (.open_ uri proto user))
    (hf : ∀ f ∈ s.feeds, ∀ x ∈ f.media.spropParameterSets, SafeSet x) : ∃ s' e, step w s (.open_ uri proto user) = .ok (s', e) ∧ Hardy s' := by
  obtain ⟨s', e, h1, h2, _⟩ := command_total (w := w) (s := { s with opened := true, baseURI := uri, proto := proto, user := user, sinks := [] }) ⟨⟨hop, rfl⟩, hf⟩ verbOptions uri []
  exact ⟨s', e, h1, h2⟩

theorem step_total {w : World} {s : Sess} (h : Hardy s) (op : Op) (hop : SafeOp op) : ∃ s' e, step w s op = .ok (s', e) ∧ Hardy s' := by
  have cmd : ∀ {s : Sess} verb uri hs, Hardy s → ∃ s' e, command w s verb uri hs = .ok (s', e) ∧ Hardy s' := fun verb uri hs h => by
    obtain ⟨s', e, h1, h2, _⟩ := command_total (w := w) h verb uri hs
    exact ⟨s', e, h1, h2⟩
  have dcmd : ∀ verb uri hs, ∃ s' e, s.deref (command w s verb uri hs) = .ok (s', e) ∧ Hardy s' := fun verb uri hs => by
    rw [deref_open h.1.2]; exact cmd verb uri hs h
  cases op with
  | dial uri proto user => exact ⟨_, _, rfl, ⟨hop, rfl⟩, h.2⟩
  | open_ uri proto user => exact cmd verbOptions uri [] (s := { s with opened := true, baseURI := uri, proto := proto, user := user, sinks := [] }) ⟨⟨hop, rfl⟩, h.2⟩
  | options => exact dcmd _ _ _
  | describe => exact dcmd _ _ _
  | setup => exact setupLoop_total s.feeds h rfl
  | play => exact dcmd _ _ _
  | pause => exact dcmd _ _ _
  | teardown => exact dcmd _ _ _
  | keepAlive due =>
    show ∃ s' e, s.keepAlive w due = .ok (s', e) ∧ Hardy s'
    unfold Sess.keepAlive
    rw [deref_open h.1.2]
    split
    · exact cmd _ _ _ h
    · exact ⟨_, _, rfl, h⟩
  | item i =>
    cases i with
    | frame ch p => exact ⟨_, _, rfl, h⟩
    | response rsp =>
      show ∃ s' e, handleRtsp w { s with out := .got rsp :: s.out } rsp = .ok (s', e) ∧ Hardy s'
      unfold handleRtsp
      split
      · exact ⟨_, _, rfl, h⟩
      · split
        · refine retry_total ?_ _ _; exact h
        · rw [learnSession_eq]
          refine answer_total ?_ _ rsp hop; exact h

/-- C75, the session: no history of calls, answers and packets that begins with opening it makes it panic, whatever the server answers and however writing and
listening fails. Required: not RTSP over HTTP (C63), and no description with a bare `m=video` (C37) or a parameter set that makes ParsePPS panic (C33). What happens
before it is opened is C112. -/
theorem C75_session_partial (w : World) (uri : Bytes) (proto : Proto) (user : Option (Bytes × Bytes)) (ops : List Op)
    (h : ∀ op ∈ Op.open_ uri proto user :: ops, SafeOp op) : ∃ s, run w newSession (.open_ uri proto user :: ops) = .ok s := by
  have : ∀ (ops : List Op), (∀ op ∈ ops, SafeOp op) → ∀ s, Hardy s → ∃ s', run w s ops = .ok s' := by
    intro ops
    induction ops with
    | nil => intro _ s _; exact ⟨s, rfl⟩
    | cons op ops ih =>
      intro h s hs
      obtain ⟨t, e, h1, h2⟩ := step_total (w := w) hs op (h op (by simp))
      rw [run, h1]
      exact ih (fun o ho => h o (by simp [ho])) t h2
  obtain ⟨t, e, h1, h2⟩ := step_open_total w newSession uri proto user (h _ (by simp)) (fun f hf => by (cases hf))
  rw [run, h1]
  exact this ops (fun o ho => h o (by simp [ho])) t h2

/-- A description with a sequence parameter set, as cameras send it, and a history with it. -/
def demoSafe : Bytes := b!"v=0\r\nm=video 0 RTP/AVP 96\r\na=fmtp:96 packetization-mode=1;sprop-parameter-sets=Z0IACg==\r\na=control:v\r\n"

/-- Every parameter set other than a picture parameter set is handled, whatever its content ... -/
theorem C75_other_sets (header : UInt8) (payload : Bytes) (h : header.toNat % 32 ≠ 8) : SafeSet [] ∧ SafeSet (header :: payload) := by
  refine ⟨fun inf st ⟨p, hp⟩ => by (cases hp), fun inf st ⟨p, hp⟩ => ?_⟩
  obtain ⟨_, h2, _, h4⟩ := C34_dispatch inf st header payload
  by_cases h7 : header.toNat % 32 = 7
  · rw [h2 h7] at hp
    obtain ⟨e, s', h'⟩ := C31_total st payload
    rw [h'] at hp; cases hp
  · rw [h4 h7 h] at hp; cases hp

/-- ... and so is a picture parameter set unless it has more than eight slice groups or as many map units as can be. -/
theorem C75_pps (header : UInt8) (payload : Bytes) (hn : ∀ n r, ppsHead (newBitReader payload) = .ok (.ok n, r) → n ≤ 7)
    (hsize : ∀ n r r' size r'', ppsHead (newBitReader payload) = .ok (.ok n, r) → readUnsignedGolomb r = .ok (.ok 6, r') →
      readUnsignedGolomb r' = .ok (.ok size, r'') → size ≠ 2 ^ 32 - 1) : SafeSet (header :: payload) := by
  by_cases h : header.toNat % 32 = 8
  · intro inf st ⟨p, hp⟩
    rw [(C34_dispatch inf st header payload).2.2.1 h] at hp
    obtain ⟨e, st', h'⟩ := C33_total_partial inf st payload hn hsize
    rw [h'] at hp; cases hp
  · exact (C75_other_sets header payload h).2

/-- Ordinary sets: a sequence parameter set, and a picture parameter set with one slice group. -/
example : (0x67 : UInt8).toNat % 32 ≠ 8 ∧ (∃ r, ppsHead (newBitReader [203, 131, 203, 32]) = .ok (.ok 0, r)) ∧ SafeSet (0x68 :: [203, 131, 203, 32]) := by
  have h : ∃ r, ppsHead (newBitReader [203, 131, 203, 32]) = .ok (.ok 0, r) := by
    have h : (ppsHead (newBitReader [203, 131, 203, 32])).toOption.map (·.1.toOption) = some (some 0) := by decide +kernel
    match hp : ppsHead (newBitReader [203, 131, 203, 32]), h with
    | .ok (.ok n, r), h => injection h with h; injection h with h; exact ⟨r, by rw [h]⟩
  refine ⟨by decide, h, ?_⟩
  obtain ⟨r0, h0⟩ := h
  refine C75_pps _ _ (fun n r hn => ?_) (fun n r r' size r'' hn h6 => ?_)
  · rw [h0] at hn; injection hn with hn; injection hn with hn; injection hn with hn; omega
  · have : ((ppsHead (newBitReader [203, 131, 203, 32])).toOption.bind fun x => (readUnsignedGolomb x.2).toOption.map fun y => y.1.toOption) ≠ some (some 6) := by
      decide +kernel
    rw [hn] at this
    simp only [Except.toOption, Option.bind_some, h6] at this
    exact absurd rfl this

theorem not_ok_panics {α : Type} {x : Go α} (h : x.isOk = false) : Panics x := by
  cases x with
  | error p => exact ⟨p, rfl⟩
  | ok a => cases h

/-- C75 fails: a description with the line `m=video` panics in the goroutine that reads from the connection. -/
theorem C75_bare_refuted : ∃ s, run demoWorld newSession [demoOpen, demoGot 1 200 [] none] = .ok s ∧ Panics (step demoWorld s (demoGot 2 200 [] (some b!"v=0\r\nm=video\r\n"))) :=
  ⟨_, rfl, _, rfl⟩

/-- C75 fails: so does the answer to the SETUP after a description with the parameter sets `aME/8A==`, a picture parameter set with nine slice groups. -/
theorem C75_pps_refuted : ∃ s, run demoWorld newSession [demoOpen, demoGot 1 200 [] none, demoGot 2 200 [] (some b!"m=video 0 RTP/AVP 96\r\na=fmtp:96 packetization-mode=1;sprop-parameter-sets=aME/8A==\r\n")] = .ok s ∧
    Panics (step demoWorld s (demoOk 3)) := by
  refine ⟨_, rfl, not_ok_panics ?_⟩
  decide +kernel

theorem demoSafe_safe : SafeBody demoSafe := by
  refine ⟨by decide, ?_⟩
  intro ms h m hm x hx
  have h0 : (sdpParse demoSafe).map (fun ms => ms.flatMap (·.spropParameterSets)) = .ok [[0x67, 0x42, 0x00, 0x0A]] := by decide +kernel
  rw [h] at h0
  injection h0 with h0
  dsimp only at h0
  have : x ∈ ms.flatMap (·.spropParameterSets) := List.mem_flatMap.2 ⟨m, hm, hx⟩
  rw [h0, List.mem_singleton] at this
  subst this
  exact (C75_other_sets 0x67 [0x42, 0x00, 0x0A] (by decide)).2

/-- The whole history up to a refused PLAY meets what `C75_session_partial` requires. -/
example : ∀ op ∈ [demoOpen, demo401 1, demoGot 1 200 [] none, demoGot 2 200 [] (some demoSafe), demoOk 3, .play, demoGot 4 404 [] none], SafeOp op := by
  intro op hop
  simp only [List.mem_cons, List.not_mem_nil, or_false] at hop
  rcases hop with rfl | rfl | rfl | rfl | rfl | rfl | rfl
  · show Proto.tcp ≠ .http; decide
  · intro body hb; cases hb
  · intro body hb; cases hb
  · intro body hb; injection hb with hb; subst hb; exact demoSafe_safe
  · intro body hb; cases hb
  · trivial
  · intro body hb; cases hb

end Ouro
