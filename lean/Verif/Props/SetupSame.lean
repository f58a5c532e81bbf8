import Verif.Props.ConcurrentSame
import Verif.Model.ConcurrentSetup
import Verif.Props.Setup
/-! # C127: undisturbed, `Setup` does in the concurrent model what it does in the session model -/
namespace Ouro
open Spec

/-- The same memory, and the numbers noted are those in the first of the feeds; a call of `Setup` was made for each, and it was for a SETUP; as many
streams are set up, and the session was reported ready in both or in neither. -/
structure SameSetup (s : Sess) (t : Setting) (done : List Feed) (reqs : List Request) : Prop where
  memory : SameMemory s t.sh reqs
  feeds : t.feeds = s.feeds.length
  mine : t.mine.length = done.length
  noted : t.noted.map (fun c : Nat => (c : Int)) = done.map (·.cseq)
  verbs : ∀ k ∈ t.mine, ∃ r : Request, reqs[k]? = some r ∧ r.verb = b!"SETUP"
  idx : t.idx = s.feedidx
  ready : t.ready = decide (0 < readies s.out)

theorem SameSetup.count {s : Sess} {t : Setting} {done : List Feed} {reqs : List Request} (h : SameSetup s t done reqs) : t.noted.length = done.length := by
  have := congrArg List.length h.noted
  simpa using this

/-- `Setup` for one stream, with nothing in between. -/
theorem setup_alone (t : Setting) (h : t.noted.length < t.feeds) (hm : t.mine.length = t.noted.length) :
    sturns t (List.replicate 6 .setup) =
      { t with
        sh := [Turn.call, .go t.sh.calls.length, .go t.sh.calls.length, .go t.sh.calls.length, .go t.sh.calls.length].foldl turn t.sh
        mine := t.mine ++ [t.sh.calls.length]
        noted := t.noted ++ [t.sh.cseq + 1] } := by
  have h1 : t.mine[t.noted.length]? = none := List.getElem?_eq_none (by omega)
  have h2 : (t.mine ++ [t.sh.calls.length])[t.noted.length]? = some t.sh.calls.length := by rw [← hm, List.getElem?_concat_length]
  rw [call_alone]
  simp [sturns, List.replicate, sturn, h, h1, h2, turn]

/-- **C127**: when no other goroutine runs and the requests can be written, `Setup` in the concurrent model leaves the counter, the queue and the
numbers written as the session model does, and the numbers it notes are those the session model stores in the feeds. -/
theorem C127_same_setup {w : World} (fs : List Feed) : ∀ (done : List Feed) (s s' : Sess) (t : Setting) (reqs : List Request), SameSetup s t done reqs →
    s.feeds = done ++ fs → s.opened = true → setupLoop w done fs s = .ok (s', none) →
    ∃ more, more.length = fs.length ∧ SameSetup s' (sturns t (List.replicate (6 * fs.length) .setup)) s'.feeds (reqs ++ more) := by
  induction fs with
  | nil =>
    intro done s s' t reqs h hf _ hr
    cases hr
    rw [List.append_nil] at hf
    exact ⟨[], rfl, by rw [List.append_nil, hf]; exact h⟩
  | cons f fs ih =>
    intro done s s' t reqs h hf ho hr
    unfold setupLoop at hr
    cases hc : command w s verbSetup (setupURI s.baseURI f.media.control) [(b!"Transport", f.transportHeader)] with
    | error p => rw [hc] at hr; cases hr
    | ok r =>
      obtain ⟨s1, e⟩ := r
      rw [hc] at hr
      cases e with
      | some e => cases hr
      | none =>
        obtain ⟨req, hv, _, _, h1⟩ := C56_same_command h.memory ho hc
        have hlen := h.count
        have hlt : t.noted.length < t.feeds := by rw [h.feeds, hf, List.length_append, List.length_cons]; omega
        have hset := setup_alone t hlt (by rw [h.mine, hlen])
        have hs1 : t.sh.cseq + 1 = s1.cseq := by
          have := h1.cseq
          rw [← h.memory.calls, call_alone] at this
          exact this
        rw [← h.memory.calls] at h1
        obtain ⟨more, hm, h2⟩ := ih (done ++ [{ f with cseq := s1.cseq }]) { s1 with feeds := done ++ { f with cseq := s1.cseq } :: fs } s'
          (sturns t (List.replicate 6 .setup)) (reqs ++ [req])
          (by
            rw [hset]
            obtain ⟨hi, hrd⟩ : s1.feedidx = s.feedidx ∧ readies s1.out = readies s.out := by
              rcases command_out hc with ⟨_, rfl, _⟩ | ⟨_, _, a, x, res, rfl, _⟩ <;> exact ⟨rfl, rfl⟩
            refine ⟨⟨h1.cseq, h1.calls, h1.queue, h1.wire⟩, ?_, ?_, ?_, fun k hk => ?_, h.idx.trans hi.symm, h.ready.trans (by rw [hrd])⟩
            · show t.feeds = _
              rw [h.feeds, hf]; simp
            · simp [h.mine]
            · simp [h.noted, hs1]
            · rcases List.mem_append.1 hk with hk | hk
              · obtain ⟨r, hr, hrv⟩ := h.verbs k hk
                exact ⟨r, by rw [List.getElem?_append_left (List.getElem?_eq_some_iff.1 hr).1, hr], hrv⟩
              · rw [List.mem_singleton.1 hk, h.memory.calls]
                exact ⟨req, List.getElem?_concat_length, hv⟩)
          (by simp) ((command_opened hc).trans ho) hr
        refine ⟨req :: more, by simp [hm], ?_⟩
        rw [show 6 * (f :: fs).length = 6 + 6 * fs.length by rw [List.length_cons]; omega, ← List.replicate_append_replicate]
        rw [show sturns t (List.replicate 6 .setup ++ List.replicate (6 * fs.length) .setup) =
          sturns (sturns t (List.replicate 6 .setup)) (List.replicate (6 * fs.length) .setup) from List.foldl_append ..]
        simpa using h2

/-- The concurrent model when the session calls `Setup`. -/
def settingOf (s : Sess) (sh : Shared) : Setting := { sh, feeds := s.feeds.length, idx := s.feedidx, ready := decide (0 < readies s.out) }

/-- **C127**: the same from the beginning of `Setup`. -/
theorem C127_same {w : World} {s s' : Sess} {sh : Shared} {reqs : List Request} (h : SameMemory s sh reqs) (ho : s.opened = true)
    (hr : s.setup w = .ok (s', none)) :
    ∃ more, SameSetup s' (sturns (settingOf s sh) (List.replicate (6 * s.feeds.length) .setup)) s'.feeds (reqs ++ more) := by
  obtain ⟨more, _, h2⟩ := C127_same_setup s.feeds [] s s' (settingOf s sh) reqs ⟨h, rfl, rfl, rfl, fun k hk => by (cases hk), rfl, rfl⟩ rfl ho hr
  exact ⟨more, h2⟩

theorem queue_find {q : List (Int × Request)} {r : List (Nat × Nat)} {reqs : List Request} (c : Nat)
    (h : q.map (fun e => (e.1, some e.2)) = r.map fun e => ((e.1 : Int), reqs[e.2]?)) :
    ((q.find? fun e => e.1 = (c : Int)).map fun e => some e.2) = (r.find? fun e => e.1 = c).map fun e => reqs[e.2]? := by
  induction q generalizing r with
  | nil =>
    cases r with
    | nil => rfl
    | cons x r => cases h
  | cons y q ih =>
    cases r with
    | nil => cases h
    | cons x r =>
      rw [List.map_cons, List.map_cons] at h
      injection h with h1 h2
      injection h1 with h1 h3
      by_cases hc : x.1 = c
      · rw [List.find?_cons_of_pos (by simp [h1, hc]), List.find?_cons_of_pos (by simp [hc])]
        simp [h3]
      · rw [List.find?_cons_of_neg (by simp [h1]; omega), List.find?_cons_of_neg (by simp [hc])]
        exact ih h2

theorem count_cast (l : List Nat) (c : Nat) : (l.map fun c : Nat => (c : Int)).count (c : Int) = l.count c := by
  induction l with
  | nil => rfl
  | cons x l ih =>
    rw [List.map_cons, List.count_cons, List.count_cons, ih]
    congr 1
    by_cases h : x = c
    · simp [h]
    · simp [h]
      omega

/-- **C127**: a response 200 to a request of `Setup`, when it sets its stream up, does in the concurrent model what it does in the session model: the
same request leaves the queue, as many streams count as set up, and the session gets ready in both or in neither. -/
theorem C127_same_answer {w : World} (hl : ∀ o k p, w.listen o k p = .ok) {s : Sess} {t : Setting} {reqs : List Request} (h : SameSetup s t s.feeds reqs)
    {c : Nat} {rsp : Response} (hc : rsp.cseq = c) (h200 : rsp.statusCode = 200) {e : Nat × Nat} (he : t.sh.queue.find? (fun e => e.1 = c) = some e) (hm : e.2 ∈ t.mine)
    (hg : ∀ f ∈ s.feeds, f.cseq = c → ∃ f', f.transportSetup w.inf (rsp.header.get b!"Transport") = .ok (f', none)) :
    ∃ s', step w s (.item (.response rsp)) = .ok (s', none) ∧ SameSetup s' (sturn t (.answer c)) s'.feeds reqs := by
  obtain ⟨req, hreq, hv⟩ := h.verbs _ hm
  have hq : s.find rsp.cseq = some req := by
    have := queue_find c h.memory.queue
    rw [he, Option.map_some, hreq] at this
    unfold Sess.find
    rw [hc]
    cases hx : s.queue.find? fun e => e.1 = (c : Int) with
    | none => rw [hx] at this; cases this
    | some y => rw [hx] at this; simpa using this
  have hlen := h.count
  show ∃ s', handleRtsp w { s with out := .got rsp :: s.out } rsp = .ok (s', none) ∧ _
  unfold handleRtsp
  rw [show ({ s with out := .got rsp :: s.out } : Sess).find rsp.cseq = some req from hq]
  dsimp only
  rw [if_neg (by rw [h200]; decide), learnSession_eq]
  dsimp only [Sess.remove]
  generalize learned s.session (rsp.header.get b!"Session") = sid
  unfold answer
  rw [hv, if_neg (by decide), if_neg (by decide), if_neg (by decide), if_neg (by decide), if_neg (by decide), if_pos (by decide)]
  unfold handleSetup
  rw [if_pos h200]
  dsimp only
  obtain ⟨u, hu, _⟩ := setupAnswer_ok hl s.feeds [] { s with queue := s.queue.filter (fun e => e.1 ≠ rsp.cseq), session := sid, out := .got rsp :: s.out } rfl
    (fun f hf hfc => hg f hf (hfc.trans hc))
  rw [hu]
  obtain ⟨c1, c2, c3, c4⟩ := setupAnswer_core _ hu
  obtain ⟨r1, r2, _, r4⟩ := setupAnswer_feeds _ hu rfl
  refine ⟨_, rfl, ?_⟩
  have hidx : u.feedidx = t.idx + t.noted.count c := by
    rw [r4 rfl, hc]
    show s.feedidx + (s.feeds.map Feed.cseq).count (c : Int) = _
    rw [← h.noted, count_cast, h.idx]
  have hul : u.feeds.length = t.feeds := by
    have := congrArg List.length r2
    rw [h.feeds]
    simpa using this
  have ht : sturn t (.answer c) = { t with
      sh := turn t.sh (.dequeue c), idx := t.idx + t.noted.count c, ready := t.ready || decide (t.feeds ≤ t.idx + t.noted.count c) } := by
    unfold sturn
    dsimp only
    rw [if_neg (by rw [hlen, h.feeds]; omega), he]
    dsimp only
    rw [if_pos hm]
  have hmem : SameMemory u (turn t.sh (.dequeue c)) reqs := by
    have hx := C56_same_remove h.memory c
    refine ⟨hx.cseq.trans c1.symm, hx.calls, ?_, ?_⟩
    · rw [c2, hc]; exact hx.queue
    · rw [c4]; exact hx.wire
  have hfeeds : u.feeds.map (·.cseq) = s.feeds.map (·.cseq) := r2
  rw [ht]
  unfold checkReady
  by_cases hr : u.feedidx ≥ u.feeds.length
  · rw [if_pos hr]
    refine ⟨⟨hmem.cseq, hmem.calls, hmem.queue, hmem.wire⟩, hul.symm, ?_, h.noted.trans hfeeds.symm, h.verbs, hidx.symm, ?_⟩
    · show t.mine.length = u.feeds.length
      rw [h.mine, hul, h.feeds]
    · show (t.ready || decide (t.feeds ≤ t.idx + t.noted.count c)) = decide (0 < readies u.out + 1)
      rw [decide_eq_true (show t.feeds ≤ t.idx + t.noted.count c by omega)]
      simp
  · rw [if_neg hr]
    refine ⟨hmem, hul.symm, ?_, h.noted.trans hfeeds.symm, h.verbs, hidx.symm, ?_⟩
    · show t.mine.length = u.feeds.length
      rw [h.mine, hul, h.feeds]
    · show (t.ready || decide (t.feeds ≤ t.idx + t.noted.count c)) = decide (0 < readies u.out)
      rw [decide_eq_false (show ¬ t.feeds ≤ t.idx + t.noted.count c by omega), c4, Bool.or_false]
      exact h.ready

/-- Two streams in an open session. -/
example : ∃ s', ({ newSession with opened := true, feeds := demoFeeds } : Sess).setup demoWorld = .ok (s', none) ∧ s'.feeds.map (·.cseq) = [1, 2] ∧
    SameMemory { newSession with opened := true, feeds := demoFeeds } {} [] :=
  ⟨_, rfl, by decide +kernel, rfl, rfl, rfl, rfl⟩

/-- The answer to the first of two requests of `Setup`: the request is in the queue, it is one of `Setup`, and the stream accepts the header. -/
example : (sturns (settingOf { newSession with opened := true, feeds := demoFeeds } {}) (List.replicate 12 .setup)).sh.queue.find? (fun e => e.1 = 1) = some (1, 0) ∧
    0 ∈ (sturns (settingOf { newSession with opened := true, feeds := demoFeeds } {}) (List.replicate 12 .setup)).mine ∧
    ∀ f ∈ demoFeeds, ((f.transportSetup demoWorld.inf b!"RTP/AVP/TCP;unicast;interleaved=0-1").toOption.map (·.2.isNone)) = some true := by
  decide +kernel

end Ouro
