import Verif.Lemmas.CleanSess
import Verif.Props.Setup
/-!
# C106: what the server reads from the connection

The requests themselves are C49's; here it is about the bytes of all of them, one after the other, as the server gets them: it must find
where each ends, and there must be nothing in them that it takes for something else.
-/
namespace Ouro
open Spec

/-- The requests of a history, in the order in which they were written. -/
def commandsOf (out : List Out) : List Request :=
  out.reverse.filterMap fun o => match o with | .sent _ req _ => some req | _ => none

/-- The bytes the server gets if every write gets through: the requests one after the other. The order of the headers of each is that of a Go map. -/
def sentBytes (order : Request → Header) (out : List Out) : Bytes := (commandsOf out).flatMap fun q => q.pack (order q)

/-- What the client means by a request. -/
def meaning (order : Request → Header) (q : Request) : Received :=
  { verb := q.verb, uri := q.uri, version := b!"RTSP/1.0", body := [],
    headers := [(b!"CSeq", itoa q.cseq)] ++ order q ++
      (if q.session ≠ [] ∧ q.verb ≠ b!"OPTIONS" ∧ q.verb ≠ b!"SETUP" then [(b!"Session", q.session)] else []) ++
      (if q.auth ≠ [] then [(b!"Authorization", q.auth)] else []) ++
      [(b!"User-Agent", b!"Ouro/1.0"), (b!"Content-Length", b!"0")] }

theorem reads_all (order : Request → Header) (ho : ∀ q, (order q).Perm q.header) (qs : List Request) (h : ∀ q ∈ qs, CleanReq q) :
    serverReads (qs.flatMap fun q => q.pack (order q)) = (qs.map (meaning order), []) := by
  induction qs with
  | nil => rfl
  | cons q qs ih =>
    have hq := h q (by simp)
    have hc := cutHead_pack hq (order q) (ho q) (qs.flatMap fun q => q.pack (order q))
    have hr := C49_request q (order q) (ho q) hq.verb hq.uri hq.header hq.session hq.auth
    rw [List.flatMap_cons, serverReads_step hc hr, ih (fun x hx => h x (List.mem_cons_of_mem _ hx))]
    rfl

/-- C106 (the missing part is refuted below: the URI, the name of the user and the server's answers could have anything in them). A
session opened on a URI that is one word, by a user without a carriage return in the name; then calls and packets and answers in any
order, the answers without a carriage return inside a header value, and with descriptions without one inside a line or a word
`control:` after a blank. Then the server reads exactly the commands of the session, in their order, each with its verb, URI, CSeq,
headers, session and authorization, and nothing else; nothing is left over. -/
theorem C106_read_partial (w : World) (uri : Bytes) (proto : Proto) (user : Option (Bytes × Bytes)) (ops : List Op) (s : Sess)
    (h : run w newSession (.open_ uri proto user :: ops) = .ok s) (hu : IsWord uri) (hn : ∀ u p, user = some (u, p) → (13 : UInt8) ∉ u)
    (hops : ∀ op ∈ ops, PlainOp op) (order : Request → Header) (ho : ∀ q, (order q).Perm q.header) :
    serverReads (sentBytes order s.out) = ((commandsOf s.out).map (meaning order), []) := by
  rw [run] at h
  split at h
  · cases h
  · rename_i s1 e1 h1
    have hc := run_clean ops h (open_clean h1 hu hn) hops
    refine reads_all order ho _ ?_
    intro q hq
    unfold commandsOf at hq
    obtain ⟨o, ho1, ho2⟩ := List.mem_filterMap.1 hq
    rw [List.mem_reverse] at ho1
    cases o with
    | sent r q' res => cases ho2; exact hc.out _ _ _ ho1
    | _ => cases ho2

/-- C106, for the address the user gives: any text the client accepts, without a blank in the URI of its requests (so, by
`C92_space_iff`, in the query) and without an escaped carriage return in the name. -/
theorem C106_address_partial (w : World) (address : Bytes) (d : Dialed) (proto : Proto) (ops : List Op) (s : Sess) (hd : dial address = some d)
    (h : run w newSession (.open_ d.base proto d.user :: ops) = .ok s) (hsp : 32 ∉ d.base) (hn : ∀ u p, d.user = some (u, p) → (13 : UInt8) ∉ u)
    (hops : ∀ op ∈ ops, PlainOp op) (order : Request → Header) (ho : ∀ q, (order q).Perm q.header) :
    serverReads (sentBytes order s.out) = ((commandsOf s.out).map (meaning order), []) :=
  C106_read_partial w d.base proto d.user ops s h ⟨hsp, fun hm => absurd (C92_no_control address d hd 13 hm).1 (by decide)⟩ hn hops order ho

theorem demoSdp_plain : PlainBody demoSdp := by
  intro line hl
  have hs : split 10 demoSdp = [b!"m=video 0 RTP/AVP 96\r", b!"a=control:v\r", b!"m=video 0 RTP/AVP 97\r", b!"a=control:a\r", []] := by decide
  rw [hs] at hl
  simp only [List.mem_cons, List.not_mem_nil, or_false] at hl
  rcases hl with rfl | rfl | rfl | rfl | rfl
  · exact ⟨⟨b!"m=video 0 RTP/AVP 96", .inr rfl, by decide⟩, by decide⟩
  · exact ⟨⟨b!"a=control:v", .inr rfl, by decide⟩, by decide⟩
  · exact ⟨⟨b!"m=video 0 RTP/AVP 97", .inr rfl, by decide⟩, by decide⟩
  · exact ⟨⟨b!"a=control:a", .inr rfl, by decide⟩, by decide⟩
  · exact ⟨⟨[], .inl rfl, by decide⟩, by decide⟩

/-- The conditions hold of a session that describes a presentation, sets up two feeds and plays; it has five requests. -/
example : ∃ s, run demoWorld newSession (demoOpen :: [demoGot 1 200 [] none, demoGot 2 200 [] (some demoSdp), .play]) = .ok s ∧
    (∀ op ∈ [demoGot 1 200 [] none, demoGot 2 200 [] (some demoSdp), .play], PlainOp op) ∧
    (commandsOf s.out).map (·.verb) = [b!"OPTIONS", b!"DESCRIBE", b!"SETUP", b!"SETUP", b!"PLAY"] := by
  refine ⟨_, rfl, ?_, by decide⟩
  intro op hop
  simp only [List.mem_cons, List.not_mem_nil, or_false] at hop
  rcases hop with rfl | rfl | rfl
  · refine ⟨?_, ?_⟩
    · intro e he; cases he
    · intro b hb; cases hb
  · refine ⟨?_, ?_⟩
    · intro e he; cases he
    intro b hb
    cases hb
    exact demoSdp_plain
  · trivial

theorem cutHead_more {p head rest : Bytes} (h : cutHead p = some (head, rest)) (t : Bytes) : cutHead (p ++ t) = some (head, rest ++ t) := by
  induction p generalizing head with
  | nil => cases h
  | cons c p ih =>
    rw [cutHead] at h
    rw [List.cons_append, cutHead]
    split at h
    · rename_i hp
      have hlen : 4 ≤ (c :: p).length := hp.length_le
      cases h
      rw [if_pos (by obtain ⟨x, hx⟩ := hp; exact ⟨x ++ t, by rw [← List.append_assoc, hx, List.cons_append]⟩),
        ← List.cons_append, List.take_append_of_le_length hlen, List.drop_append_of_le_length hlen]
    · rename_i hp
      cases hc : cutHead p with
      | none => rw [hc] at h; cases h
      | some q =>
        rw [hc] at h
        cases h
        have hl := cutHead_append hc
        have hlen : 4 ≤ p.length := by rw [hl.1, List.length_append]; omega
        rw [if_neg, ih hc]
        · rfl
        · intro hq
          apply hp
          rw [← List.cons_append] at hq
          exact List.prefix_of_prefix_length_le hq (List.prefix_append _ _) (by simp only [List.length_cons, List.length_nil]; omega)

theorem reads_head {p : Bytes} {m : Received} (hc : cutHead p = some (p, [])) (hr : serverRead p = some m) (t : Bytes) :
    serverReads (p ++ t) = (m :: (serverReads t).1, (serverReads t).2) := serverReads_step (cutHead_more hc t) hr

/-- A challenge for Digest authentication, without a quality of protection. -/
def demoPlainDigest : Op := demoGot 1 401 [(b!"Www-Authenticate", b!"Digest realm=\"r\", nonce=\"n\"")] none

/-- The name `u`, and after it the rest of a request and another whole one. -/
def smuggler : Bytes := b!"u\r\n\r\nTEARDOWN rtsp://h:554/x RTSP/1.0\r\nCSeq: 9\r\n\r\n"

/-- The client accepts it as part of an address. -/
theorem smuggler_dialed : dial b!"rtsp://u%0D%0A%0D%0ATEARDOWN%20rtsp%3A%2F%2Fh%3A554%2Fx%20RTSP%2F1.0%0D%0ACSeq%3A%209%0D%0A%0D%0A:p@h/x" =
    some ⟨b!"h:554", b!"rtsp://h:554/x", some (smuggler, b!"p")⟩ := by decide +kernel

/-- The refusal, as read. -/
def demoRefusal : Response := demoRsp 1 401 [(b!"Www-Authenticate", b!"Digest realm=\"r\", nonce=\"n\"")] none

/-- The OPTIONS request of this session, with an authorization. -/
def demoFirst (a : Bytes) : Request := ⟨b!"OPTIONS", 1, b!"rtsp://h:554/x", a, [], []⟩

theorem smuggled_retry (w : World) (hw : ∀ o b, w.write o b = .ok) :
    run w newSession [.open_ b!"rtsp://h:554/x" .tcp (some (smuggler, b!"p")), demoPlainDigest] =
      (match retry w { newSession with opened := true, baseURI := b!"rtsp://h:554/x", proto := .tcp, user := some (smuggler, b!"p"), cseq := 1, out := [.got demoRefusal, .sent false (demoFirst []) .ok] } (demoFirst []) b!"Digest realm=\"r\", nonce=\"n\"" with
       | .error p => .error p | .ok (s, _) => .ok s : Go Sess) := by
  have e1 : step w newSession (.open_ b!"rtsp://h:554/x" .tcp (some (smuggler, b!"p"))) = .ok ({ newSession with opened := true, baseURI := b!"rtsp://h:554/x", proto := .tcp, user := some (smuggler, b!"p"), cseq := 1, queue := [(1, demoFirst [])], out := [.sent false (demoFirst []) .ok] }, none) := by
    obtain ⟨md5, inf, rnd, write, listen⟩ := w
    have hwr : write = fun _ _ => .ok := by funext o b; exact hw o b
    subst hwr
    rfl
  rw [run, e1]
  dsimp only
  rw [run]
  have e2 : step w { newSession with opened := true, baseURI := b!"rtsp://h:554/x", proto := .tcp, user := some (smuggler, b!"p"), cseq := 1, queue := [(1, demoFirst [])], out := [.sent false (demoFirst []) .ok] } demoPlainDigest =
    retry w { newSession with opened := true, baseURI := b!"rtsp://h:554/x", proto := .tcp, user := some (smuggler, b!"p"), cseq := 1, out := [.got demoRefusal, .sent false (demoFirst []) .ok] } (demoFirst []) b!"Digest realm=\"r\", nonce=\"n\"" := by
    show handleRtsp w { newSession with opened := true, baseURI := b!"rtsp://h:554/x", proto := .tcp, user := some (smuggler, b!"p"), cseq := 1, queue := [(1, demoFirst [])], out := [.got demoRefusal, .sent false (demoFirst []) .ok] } demoRefusal = _
    have e3 : Sess.find { newSession with opened := true, baseURI := b!"rtsp://h:554/x", proto := .tcp, user := some (smuggler, b!"p"), cseq := 1, queue := [(1, demoFirst [])], out := [.got demoRefusal, .sent false (demoFirst []) .ok] } demoRefusal.cseq = some (demoFirst []) := rfl
    have e4 : demoRefusal.header.get b!"WWW-Authenticate" = b!"Digest realm=\"r\", nonce=\"n\"" := by decide
    unfold handleRtsp
    rw [e3]
    dsimp only
    rw [if_pos (by decide), e4]
    rfl
  rw [e2]
  cases retry w _ _ _ with
  | error p => rfl
  | ok r => rfl

/-- C106 does not hold for every address: whatever the hash function and the random numbers are, once the server asks for Digest
authentication it reads a TEARDOWN nobody issued: the session has only sent OPTIONS, twice. -/
theorem C106_smuggled_refuted (w : World) (hw : ∀ o b, w.write o b = .ok) (order : Request → Header) (ho : ∀ q, (order q).Perm q.header) :
    ∃ d, dial b!"rtsp://u%0D%0A%0D%0ATEARDOWN%20rtsp%3A%2F%2Fh%3A554%2Fx%20RTSP%2F1.0%0D%0ACSeq%3A%209%0D%0A%0D%0A:p@h/x" = some d ∧
    ∃ s, run w newSession [.open_ d.base .tcp d.user, demoPlainDigest] = .ok s ∧
      (commandsOf s.out).map (·.verb) = [b!"OPTIONS", b!"OPTIONS"] ∧
      ∃ m ∈ (serverReads (sentBytes order s.out)).1, m.verb = b!"TEARDOWN" ∧ m.uri = b!"rtsp://h:554/x" := by
  obtain ⟨f, d, d', h1, h2⟩ := C42_response w.md5 (w.rnd [.got demoRefusal, .sent false (demoFirst []) .ok]) b!"rtsp://h:554/x" b!"Digest realm=\"r\", nonce=\"n\"" smuggler b!"p" b!"OPTIONS" []
      { uri := b!"rtsp://h:554/x", realm := b!"r", nonce := b!"n", algorithm := b!"md5" } (by decide +kernel) (by decide) (by decide)
  generalize ha : rfcAuthorization w.md5 (w.rnd [.got demoRefusal, .sent false (demoFirst []) .ok]) { uri := b!"rtsp://h:554/x", realm := b!"r", nonce := b!"n", algorithm := b!"md5" }
      smuggler b!"p" b!"OPTIONS" [] = a at h2
  have hat : ∃ t, a = b!"Digest username=\"" ++ (smuggler ++ t) := by
    rw [← ha]
    exact ⟨_, by simp only [rfcAuthorization, authorization, quotedParam, List.append_assoc]; rfl⟩
  obtain ⟨t, hat⟩ := hat
  have hd : newDigest b!"rtsp://h:554/x" b!"Digest realm=\"r\", nonce=\"n\"" = .ok { uri := b!"rtsp://h:554/x", realm := b!"r", nonce := b!"n", algorithm := b!"md5" } := by decide +kernel
  refine ⟨_, smuggler_dialed, { newSession with opened := true, baseURI := b!"rtsp://h:554/x", proto := .tcp, user := some (smuggler, b!"p"), cseq := 1, auth := some (f, d'), queue := [(1, demoFirst a)], out := [.sent true (demoFirst a) .ok, .got demoRefusal, .sent false (demoFirst []) .ok] }, ?_, rfl, ?_⟩
  · show run w newSession [.open_ b!"rtsp://h:554/x" .tcp (some (smuggler, b!"p")), demoPlainDigest] = _
    rw [smuggled_retry w hw]
    unfold retry authorize
    dsimp only
    rw [hd]
    dsimp only
    rw [h1]
    dsimp only [pure, Except.pure]
    unfold callAuth
    dsimp only
    rw [show (demoFirst []).verb = b!"OPTIONS" from rfl, h2]
    unfold writeReq
    dsimp only [enqueue, pure, Except.pure]
    rw [hw]
    rfl
  · have hne : a ≠ [] := by rw [hat]; exact List.cons_ne_nil _ _
    have htext : sentBytes order [.sent true (demoFirst a) .ok, .got demoRefusal, .sent false (demoFirst []) .ok] =
        (demoFirst []).pack [] ++ (b!"OPTIONS rtsp://h:554/x RTSP/1.0\r\nCSeq: 1\r\nAuthorization: Digest username=\"u\r\n\r\n" ++
          (b!"TEARDOWN rtsp://h:554/x RTSP/1.0\r\nCSeq: 9\r\n\r\n" ++ (t ++ b!"\r\nUser-Agent: Ouro/1.0\r\nContent-Length: 0\r\n\r\n"))) := by
      show (demoFirst []).pack (order (demoFirst [])) ++ ((demoFirst a).pack (order (demoFirst a)) ++ []) = _
      rw [List.Perm.eq_nil (ho (demoFirst [])), List.Perm.eq_nil (ho (demoFirst a)), List.append_nil]
      congr 1
      unfold Request.pack
      rw [if_neg (fun h => h.1 rfl), if_pos (show (demoFirst a).auth ≠ [] from hne), show (demoFirst a).auth = a from rfl, hat]
      unfold headerLine
      simp only [List.append_assoc, List.nil_append]
      rfl
    rw [htext, reads_head (m := ⟨b!"OPTIONS", b!"rtsp://h:554/x", b!"RTSP/1.0", [(b!"CSeq", b!"1"), (b!"User-Agent", b!"Ouro/1.0"), (b!"Content-Length", b!"0")], []⟩)
        (by decide +kernel) (by decide +kernel),
      reads_head (m := ⟨b!"OPTIONS", b!"rtsp://h:554/x", b!"RTSP/1.0", [(b!"CSeq", b!"1"), (b!"Authorization", b!"Digest username=\"u")], []⟩) (by decide +kernel) (by decide +kernel),
      reads_head (m := ⟨b!"TEARDOWN", b!"rtsp://h:554/x", b!"RTSP/1.0", [(b!"CSeq", b!"9")], []⟩) (by decide +kernel) (by decide +kernel)]
    exact ⟨_, List.mem_cons_of_mem _ (List.mem_cons_of_mem _ List.mem_cons_self), rfl, rfl⟩

/-- Nor for every description: a word `control:` after a blank makes an URI with a blank, and from this SETUP on the server does not
understand the connection. -/
theorem C106_control_refuted : ∃ s, run demoWorld newSession [demoOpen, demoGot 1 200 [] none, demoGot 2 200 [] (some b!"m=video 0 RTP/AVP 96\r\na=x control:a b\r\n"), .teardown] = .ok s ∧
    (commandsOf s.out).map (·.verb) = [b!"OPTIONS", b!"DESCRIBE", b!"SETUP", b!"TEARDOWN"] ∧
    (serverReads (sentBytes (·.header) s.out)).1.map (·.verb) = [b!"OPTIONS", b!"DESCRIBE"] := ⟨_, rfl, by decide, by decide +kernel⟩

end Ouro
