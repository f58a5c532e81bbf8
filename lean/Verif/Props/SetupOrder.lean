import Verif.Spec.SetupOrder
import Verif.Props.Setup
import Verif.Props.CrashExact
import Verif.Lemmas.Dialogue
import Verif.Lemmas.SessionInv
/-! # C150: the order in which the SETUP requests are answered -/
namespace Ouro
open Spec

/-- What an answer makes of a feed (session.go:292-309, for an accepted header). -/
def setFeed (w : World) (r : Response) (f : Feed) : Feed :=
  if r.statusCode = 200 ∧ f.cseq = r.cseq then
    match f.transportSetup w.inf (r.header.get b!"Transport") with
    | .ok (f', _) => f'
    | .error _ => f
  else f

theorem setFeed_cseq (w : World) (r : Response) (f : Feed) : (setFeed w r f).cseq = f.cseq := by
  unfold setFeed
  split
  · split
    · next h => exact transportSetup_cseq h
    · rfl
  · rfl

theorem setFeed_other {w : World} {r : Response} {f : Feed} (h : f.cseq ≠ r.cseq) : setFeed w r f = f := by
  unfold setFeed
  rw [if_neg (fun e => h e.2)]

theorem setFeed_comm (w : World) {r q : Response} (h : r.cseq ≠ q.cseq) (f : Feed) : setFeed w q (setFeed w r f) = setFeed w r (setFeed w q f) := by
  by_cases h1 : f.cseq = r.cseq
  · have h2 : f.cseq ≠ q.cseq := fun e => h (h1.symm.trans e)
    rw [setFeed_other (f := f) h2, setFeed_other (f := setFeed w r f) (by rw [setFeed_cseq]; exact h2)]
  · rw [setFeed_other (f := f) h1, setFeed_other (f := setFeed w q f) (by rw [setFeed_cseq]; exact h1)]

/-- What an answer to a SETUP makes of a session, but for the log, and of the number of times Ready was reported (session.go:291-319, over TCP). -/
def afterSetup (w : World) (x : Sess × Nat) (r : Response) : Sess × Nat :=
  let full := x.1.feedidx + 1 ≥ x.1.feeds.length
  ({ x.1 with
      queue := x.1.queue.filter fun e => e.1 ≠ r.cseq
      session := learned x.1.session (r.header.get b!"Session")
      feeds := x.1.feeds.map (setFeed w r)
      feedidx := x.1.feedidx + 1
      stage := if full then stageReady else x.1.stage },
    x.2 + if full then 1 else 0)

/-- All but the log, of which only the number of Readys is kept. For proofs only. -/
def unlogged (s : Sess) : Sess × Nat := ({ s with out := [] }, readies s.out)

theorem afterSetup_comm (w : World) {r q : Response} (h : r.cseq ≠ q.cseq)
    (hid : r.header.get b!"Session" = [] ∨ q.header.get b!"Session" = [] ∨ (r.header.get b!"Session").takeWhile (· ≠ 59) = (q.header.get b!"Session").takeWhile (· ≠ 59))
    (x : Sess × Nat) : afterSetup w (afterSetup w x r) q = afterSetup w (afterSetup w x q) r := by
  have h1 : learned (learned x.1.session (r.header.get b!"Session")) (q.header.get b!"Session") = learned (learned x.1.session (q.header.get b!"Session")) (r.header.get b!"Session") := by
    unfold learned
    rcases hid with hid | hid | hid
    · rw [hid]; simp
    · rw [hid]; simp
    · rw [hid]
      by_cases g1 : r.header.get b!"Session" = [] <;> by_cases g2 : q.header.get b!"Session" = [] <;> simp [g1, g2]
  have h2 : (x.1.feeds.map (setFeed w r)).map (setFeed w q) = (x.1.feeds.map (setFeed w q)).map (setFeed w r) := by
    rw [List.map_map, List.map_map]
    congr 1
    funext f
    exact setFeed_comm w h f
  have h3 : (x.1.queue.filter fun e => e.1 ≠ r.cseq).filter (fun e => e.1 ≠ q.cseq) = (x.1.queue.filter fun e => e.1 ≠ q.cseq).filter fun e => e.1 ≠ r.cseq := by
    rw [List.filter_filter, List.filter_filter]
    congr 1
    funext e
    exact Bool.and_comm _ _
  unfold afterSetup
  dsimp only
  rw [h1, h2, h3]
  simp only [List.length_map]

/-- The answer to a SETUP request of one of the feeds, which is set up with it over TCP, or refused for good. -/
structure Settles (w : World) (s : Sess) (r : Response) : Prop where
  asked : ∃ q, s.find r.cseq = some q ∧ q.verb = verbSetup
  final : r.statusCode ≠ 401
  feed : ∃ pre f post, s.feeds = pre ++ f :: post ∧ f.cseq = r.cseq ∧ (∀ g ∈ pre, g.cseq ≠ r.cseq) ∧ (∀ g ∈ post, g.cseq ≠ r.cseq) ∧
    (r.statusCode = 200 → ∃ f', f.transportSetup w.inf (r.header.get b!"Transport") = .ok (f', none) ∧ f'.transp.isTCP = true)

theorem checkReady_requests (s : Sess) : requestsIn (checkReady s).out = requestsIn s.out := by
  unfold checkReady
  split <;> simp [requestsIn, notify]

theorem checkReady_rest (s : Sess) : (checkReady s).queue = s.queue ∧ (checkReady s).feeds = s.feeds ∧ (checkReady s).feedidx = s.feedidx ∧ (checkReady s).sinks = s.sinks := by
  unfold checkReady
  split <;> exact ⟨rfl, rfl, rfl, rfl⟩

theorem settles_step {w : World} {s : Sess} {r : Response} (h : Settles w s r) :
    ∃ s', step w s (.item (.response r)) = .ok (s', none) ∧ unlogged s' = afterSetup w (unlogged s) r ∧ requestsIn s'.out = requestsIn s.out := by
  obtain ⟨⟨q, hq, hv⟩, h401, pre, f, post, hf, hc, hpre, hpost, hg⟩ := h
  show ∃ s', handleRtsp w { s with out := .got r :: s.out } r = _ ∧ _
  unfold handleRtsp
  rw [show ({ s with out := .got r :: s.out } : Sess).find r.cseq = some q from hq]
  dsimp only
  rw [if_neg h401, learnSession_eq]
  unfold answer
  rw [hv, if_neg (by decide), if_neg (by decide), if_neg (by decide), if_neg (by decide), if_neg (by decide), if_pos rfl]
  unfold handleSetup
  have hpm : ∀ l : List Feed, (∀ g ∈ l, g.cseq ≠ r.cseq) → l.map (setFeed w r) = l := by
    intro l hl
    induction l with
    | nil => rfl
    | cons g l ih => rw [List.map_cons, setFeed_other (hl g (by simp)), ih fun x hx => hl x (by simp [hx])]
  have hlen : s.feeds.length = pre.length + (post.length + 1) := by rw [hf]; simp
  by_cases h200 : r.statusCode = 200
  · obtain ⟨f', ht, htcp⟩ := hg h200
    rw [if_pos h200]
    have := setupAnswer_tcp (w := w) (rsp := r) pre post f f'
      { s with queue := s.queue.filter (fun e => e.1 ≠ r.cseq), session := learned s.session (r.header.get b!"Session"), out := .got r :: s.out } hpre hpost hc ht htcp
    dsimp only [Sess.remove]
    rw [← hf] at this
    rw [this]
    dsimp only
    refine ⟨_, rfl, ?_, ?_⟩
    · have hset : setFeed w r f = f' := by
        unfold setFeed
        rw [if_pos ⟨h200, hc⟩, ht]
      have hmap : s.feeds.map (setFeed w r) = pre ++ f' :: post := by
        rw [hf, List.map_append, List.map_cons, hpm pre hpre, hpm post hpost, hset]
      unfold checkReady unlogged afterSetup
      dsimp only
      rw [hmap, hlen]
      by_cases hfull : s.feedidx + 1 ≥ pre.length + (post.length + 1)
      · rw [if_pos (by simpa using hfull)]
        simp [hfull, notify, readies, stageReady]
      · rw [if_neg (by simpa using hfull)]
        simp [hfull, readies]
    · rw [checkReady_requests]; simp [requestsIn]
  · rw [if_neg h200, if_pos h401]
    refine ⟨_, rfl, ?_, ?_⟩
    · have hmap : s.feeds.map (setFeed w r) = s.feeds := by
        have : setFeed w r = id := by funext g; unfold setFeed; rw [if_neg (fun e => h200 e.1)]; rfl
        rw [this, List.map_id]
      unfold checkReady unlogged afterSetup
      dsimp only [Sess.remove]
      rw [hmap]
      by_cases hfull : s.feedidx + 1 ≥ s.feeds.length
      · rw [if_pos hfull]
        simp [hfull, notify, readies, stageReady]
      · rw [if_neg hfull]
        simp [hfull, readies]
    · rw [checkReady_requests]; simp [requestsIn, Sess.remove]

/-- Another answer is still one. -/
theorem settles_next {w : World} {s s' : Sess} {r q : Response} (hr : unlogged s' = afterSetup w (unlogged s) r) (hne : r.cseq ≠ q.cseq) (h : Settles w s q) : Settles w s' q := by
  have hq : s'.queue = s.queue.filter fun e => e.1 ≠ r.cseq := congrArg (fun x : Sess × Nat => x.1.queue) hr
  have hf : s'.feeds = s.feeds.map (setFeed w r) := congrArg (fun x : Sess × Nat => x.1.feeds) hr
  obtain ⟨⟨p, h1, h2⟩, h3, pre, f, post, h4, h5, h6, h7, h8⟩ := h
  refine ⟨⟨p, ?_, h2⟩, h3, pre.map (setFeed w r), f, post.map (setFeed w r), ?_, h5, ?_, ?_, h8⟩
  · rw [← h1]
    unfold Sess.find
    rw [hq]
    congr 1
    rw [List.find?_filter]
    congr 1
    funext e
    by_cases he : e.1 = q.cseq
    · simp only [he, decide_true, ne_eq, decide_eq_true_eq]
      simpa using fun x : q.cseq = r.cseq => hne x.symm
    · simp [he]
  · rw [hf, h4, List.map_append, List.map_cons, setFeed_other (f := f) (by rw [h5]; exact fun x => hne x.symm)]
  · intro g hg
    obtain ⟨g', hg', rfl⟩ := List.mem_map.1 hg
    rw [setFeed_cseq]
    exact h6 g' hg'
  · intro g hg
    obtain ⟨g', hg', rfl⟩ := List.mem_map.1 hg
    rw [setFeed_cseq]
    exact h7 g' hg'

theorem nodup_inj (as : List Response) (hn : (as.map (·.cseq)).Nodup) {x y : Response} (hx : x ∈ as) (hy : y ∈ as) (h : x.cseq = y.cseq) : x = y := by
  induction as with
  | nil => cases hx
  | cons a as ih =>
    rw [List.map_cons, List.nodup_cons] at hn
    rcases List.mem_cons.1 hx with e | hx' <;> rcases List.mem_cons.1 hy with e' | hy'
    · rw [e, e']
    · exact absurd (List.mem_map.2 ⟨y, hy', by rw [← h, e]⟩) hn.1
    · exact absurd (List.mem_map.2 ⟨x, hx', by rw [h, e']⟩) hn.1
    · exact ih hn.2 hx' hy'

theorem settles_run {w : World} (as : List Response) : ∀ s : Sess, (∀ r ∈ as, Settles w s r) → (as.map (·.cseq)).Nodup →
    ∃ s', Runs w s (as.map fun r => .item (.response r)) s' ∧ unlogged s' = as.foldl (afterSetup w) (unlogged s) ∧ requestsIn s'.out = requestsIn s.out := by
  induction as with
  | nil => intro s _ _; exact ⟨s, .nil s, rfl, rfl⟩
  | cons r as ih =>
    intro s h hn
    obtain ⟨t, h1, h2, h3⟩ := settles_step (h r (by simp))
    rw [List.map_cons, List.nodup_cons] at hn
    obtain ⟨s', g1, g2, g3⟩ := ih t (fun q hq => settles_next h2 (fun e => hn.1 (by rw [e]; exact List.mem_map.2 ⟨q, hq, rfl⟩)) (h q (by simp [hq]))) hn.2
    exact ⟨s', .cons h1 g1, by rw [g2, h2]; rfl, g3.trans h3⟩

/-- **C150** over TCP: the answers to any number of SETUP requests that are pending come in any order, each granted with a Transport header its feed accepts or refused for
good, with one session identifier if any. In whatever order they come, the session is the same afterwards but for the log, Ready is reported as often, and nothing is sent. -/
theorem C150_tcp_partial (w : World) (s : Sess) (hr : Reachable w s) (as bs : List Response) (hp : as.Perm bs) (hn : (as.map (·.cseq)).Nodup)
    (hq : ∀ r ∈ as, ∃ q, pending r.cseq s.out = some q ∧ q.verb = b!"SETUP") (h401 : ∀ r ∈ as, r.statusCode ≠ 401)
    (hf : ∀ r ∈ as, ∃ pre f post, s.feeds = pre ++ f :: post ∧ f.cseq = r.cseq ∧ (∀ g ∈ pre, g.cseq ≠ r.cseq) ∧ (∀ g ∈ post, g.cseq ≠ r.cseq) ∧
      (r.statusCode = 200 → ∃ f', f.transportSetup w.inf (r.header.get b!"Transport") = .ok (f', none) ∧ f'.transp.isTCP = true))
    (hid : ∃ id, ∀ r ∈ as, r.header.get b!"Session" = [] ∨ (r.header.get b!"Session").takeWhile (· ≠ 59) = id) :
    ∃ t u, Runs w s (as.map fun r => .item (.response r)) t ∧ Runs w s (bs.map fun r => .item (.response r)) u ∧
      t = { u with out := t.out } ∧ readies t.out = readies u.out ∧ requestsIn t.out = requestsIn s.out ∧ requestsIn u.out = requestsIn s.out := by
  have hs : ∀ r ∈ as, Settles w s r := by
    intro r hm
    obtain ⟨q, h1, h2⟩ := hq r hm
    exact ⟨⟨q, by rw [(inv_reachable hr).find]; exact h1, h2⟩, h401 r hm, hf r hm⟩
  obtain ⟨t, t1, t2, t3⟩ := settles_run as s hs hn
  obtain ⟨u, u1, u2, u3⟩ := settles_run bs s (fun r hm => hs r (hp.mem_iff.2 hm)) ((hp.map _).nodup_iff.1 hn)
  have hfold : as.foldl (afterSetup w) (unlogged s) = bs.foldl (afterSetup w) (unlogged s) := by
    refine List.Perm.foldl_eq' hp ?_ _
    intro x hx y hy z
    by_cases hc : x.cseq = y.cseq
    · rw [nodup_inj as hn hx hy hc]
    · refine afterSetup_comm w hc ?_ z
      obtain ⟨id, hid⟩ := hid
      rcases hid x hx with h1 | h1
      · exact .inl h1
      · rcases hid y hy with h2 | h2
        · exact .inr (.inl h2)
        · exact .inr (.inr (h1.trans h2.symm))
  have heq : unlogged t = unlogged u := by rw [t2, u2, hfold]
  refine ⟨t, u, t1, u1, ?_, congrArg Prod.snd heq, t3, u3⟩
  have h1 : ({ t with out := [] } : Sess) = { u with out := [] } := congrArg Prod.fst heq
  have h2 := congrArg (fun x : Sess => { x with out := t.out }) h1
  exact h2

/-- Two SETUP requests over TCP that wait for their answers, for feeds that the header of the answers sets up. -/
example : ∃ s, Reachable demoWorld s ∧ (pending 3 s.out).map (·.verb) = some b!"SETUP" ∧ (pending 4 s.out).map (·.verb) = some b!"SETUP" ∧ s.feeds.map (·.cseq) = [3, 4] ∧
    s.feeds.all (fun f => match f.transportSetup demoWorld.inf b!"RTP/AVP/TCP;unicast;interleaved=0-1" with
      | .ok (f', none) => f'.transp.isTCP
      | _ => false) = true :=
  ⟨_, ⟨demoSetup, rfl⟩, by decide +kernel, by decide +kernel, by decide +kernel, by decide +kernel⟩

/-! ## UDP -/

theorem udp_step {w : World} (hl : ∀ o k p, w.listen o k p = .ok) {s : Sess} {r : Response} {q : Request} (hq : s.find r.cseq = some q) (hv : q.verb = verbSetup)
    (h200 : r.statusCode = 200) {pre post : List Feed} {f f' : Feed} (hf : s.feeds = pre ++ f :: post) (hc : f.cseq = r.cseq) (hpre : ∀ g ∈ pre, g.cseq ≠ r.cseq)
    (hpost : ∀ g ∈ post, g.cseq ≠ r.cseq) (ht : f.transportSetup w.inf (r.header.get b!"Transport") = .ok (f', none)) (hu : f'.transp.isTCP = false) :
    ∃ s', step w s (.item (.response r)) = .ok (s', none) ∧ s'.queue = s.queue.filter (fun e => e.1 ≠ r.cseq) ∧ s'.feeds = pre ++ f' :: post ∧ s'.feedidx = s.feedidx + 1 ∧
      s'.sinks = s.sinks ++ [(UInt8.ofNat (s.feedidx + 1) * 2, f'.transp.port.one), (UInt8.ofNat (s.feedidx + 1) * 2 + 1, f'.transp.port.two)] := by
  show ∃ s', handleRtsp w { s with out := .got r :: s.out } r = _ ∧ _
  unfold handleRtsp
  rw [show ({ s with out := .got r :: s.out } : Sess).find r.cseq = some q from hq]
  dsimp only
  rw [if_neg (by rw [h200]; decide), learnSession_eq]
  unfold answer
  rw [hv, if_neg (by decide), if_neg (by decide), if_neg (by decide), if_neg (by decide), if_neg (by decide), if_pos rfl]
  unfold handleSetup
  rw [if_pos h200]
  dsimp only [Sess.remove]
  obtain ⟨x, hx⟩ : ∃ x : Sess, x = { s with queue := s.queue.filter (fun e => e.1 ≠ r.cseq), session := learned s.session (r.header.get b!"Session"), out := .got r :: s.out } := ⟨_, rfl⟩
  have hxs : setupAnswer w r [] s.feeds x = .ok ({ x with feedidx := x.feedidx + 1, feeds := pre ++ f' :: post, sinks := x.sinks ++ [(UInt8.ofNat (x.feedidx + 1) * 2, f'.transp.port.one), (UInt8.ofNat (x.feedidx + 1) * 2 + 1, f'.transp.port.two)] }, none) := by
    rw [hf, setupAnswer_skip pre [] _ x hpre, List.nil_append, setupAnswer, if_pos hc, ht]
    dsimp only
    rw [if_neg (by rw [hu]; decide)]
    unfold addSink
    rw [hl]
    dsimp only
    rw [hl]
    dsimp only
    rw [setupAnswer_nomatch post hpost]
    simp
  rw [hx] at hxs
  dsimp only at hxs
  rw [hxs]
  dsimp only
  exact ⟨_, rfl, checkReady_rest _⟩

theorem find_kept {s x : Sess} {c d : Int} {q : Request} (h : s.find d = some q) (hne : c ≠ d) (hx : x.queue = s.queue.filter (fun e => e.1 ≠ c)) : x.find d = some q := by
  rw [← h]
  unfold Sess.find
  rw [hx, List.find?_filter]
  congr 2
  funext e
  by_cases he : e.1 = d
  · simp only [he, decide_true, ne_eq, decide_eq_true_eq]
    simpa using fun x : d = c => hne x.symm
  · simp [he]

theorem udp_run {w : World} (hl : ∀ o k p, w.listen o k p = .ok) (ports : Response → Pair) : ∀ (as : List Response) (s : Sess), (s.feeds.map (·.cseq)).Nodup →
    (as.map (·.cseq)).Nodup → (∀ r ∈ as, ∃ q, s.find r.cseq = some q ∧ q.verb = verbSetup) → (∀ r ∈ as, r.statusCode = 200) →
    (∀ r ∈ as, ∃ f ∈ s.feeds, f.cseq = r.cseq ∧ ∃ f', f.transportSetup w.inf (r.header.get b!"Transport") = .ok (f', none) ∧ f'.transp.isTCP = false ∧ f'.transp.port = ports r) →
    ∃ t, Runs w s (as.map fun r => .item (.response r)) t ∧ t.sinks = s.sinks ++ channelsFrom s.feedidx (as.map ports) := by
  intro as
  induction as with
  | nil => exact fun s _ _ _ _ _ => ⟨s, .nil _, by simp [channelsFrom]⟩
  | cons r as ih =>
    intro s hn hd hq h2 hf
    obtain ⟨q, q1, q2⟩ := hq r (List.mem_cons_self ..)
    obtain ⟨f, f1, f2, f', f3, f4, f5⟩ := hf r (List.mem_cons_self ..)
    obtain ⟨pre, post, hs⟩ := List.append_of_mem f1
    rw [List.map_cons, List.nodup_cons] at hd
    have hn' := hn
    rw [hs, List.map_append, List.map_cons, List.nodup_append, List.nodup_cons] at hn
    have hpre : ∀ g ∈ pre, g.cseq ≠ r.cseq := fun g hg => by
      rw [← f2]
      exact hn.2.2 _ (List.mem_map.2 ⟨g, hg, rfl⟩) _ (List.mem_cons_self ..)
    have hpost : ∀ g ∈ post, g.cseq ≠ r.cseq := fun g hg e => hn.2.1.1 (List.mem_map.2 ⟨g, hg, by rw [e, f2]⟩)
    obtain ⟨s', s1, s2, s3, s4, s5⟩ := udp_step hl q1 q2 (h2 r (List.mem_cons_self ..)) hs f2 hpre hpost f3 f4
    have hfc := transportSetup_cseq f3
    have hne : ∀ a ∈ as, r.cseq ≠ a.cseq := fun a ha e => hd.1 (List.mem_map.2 ⟨a, ha, e.symm⟩)
    obtain ⟨t, t1, t2⟩ := ih s' (by rw [s3]; rw [hs] at hn'; simpa [hfc] using hn') hd.2
      (fun a ha => by
        obtain ⟨q', h1, h3⟩ := hq a (List.mem_cons_of_mem _ ha)
        exact ⟨q', find_kept h1 (hne a ha) s2, h3⟩)
      (fun a ha => h2 a (List.mem_cons_of_mem _ ha))
      (fun a ha => by
        obtain ⟨g, g1, g2, g3⟩ := hf a (List.mem_cons_of_mem _ ha)
        refine ⟨g, ?_, g2, g3⟩
        rw [hs] at g1
        rw [s3]
        rcases List.mem_append.1 g1 with g1 | g1
        · exact List.mem_append_left _ g1
        · rcases List.mem_cons.1 g1 with e | g1
          · exact absurd (by rw [← g2, e, f2]) (hne a ha)
          · exact List.mem_append_right _ (List.mem_cons_of_mem _ g1))
    refine ⟨t, .cons s1 t1, ?_⟩
    rw [t2, s5, s4, List.map_cons, channelsFrom, ← f5, List.append_assoc]
    have h8 : UInt8.ofNat (2 * (s.feedidx + 1)) = UInt8.ofNat (s.feedidx + 1) * 2 := by
      rw [Nat.mul_comm, UInt8.ofNat_mul]
      rfl
    rw [h8]
    rfl

/-- C150 over UDP, exactly: any number of SETUP requests that are granted in any order. The first stream that is answered gets the first two channels, and so on: the channels
follow the answers, not the description. -/
theorem C150_udp_exact (w : World) (hl : ∀ o k p, w.listen o k p = .ok) (s : Sess) (hr : Reachable w s) (hs : (s.feeds.map (·.cseq)).Nodup) (as : List Response)
    (hn : (as.map (·.cseq)).Nodup) (hq : ∀ r ∈ as, ∃ q, pending r.cseq s.out = some q ∧ q.verb = b!"SETUP") (h2 : ∀ r ∈ as, r.statusCode = 200) (ports : Response → Pair)
    (hf : ∀ r ∈ as, ∃ f ∈ s.feeds, f.cseq = r.cseq ∧ ∃ f', f.transportSetup w.inf (r.header.get b!"Transport") = .ok (f', none) ∧ f'.transp.isTCP = false ∧ f'.transp.port = ports r) :
    ∃ t, Runs w s (as.map fun r => .item (.response r)) t ∧ t.sinks = s.sinks ++ channelsFrom s.feedidx (as.map ports) :=
  udp_run hl ports as s hs hn (fun r hm => by
    obtain ⟨q, h1, h3⟩ := hq r hm
    exact ⟨q, by rw [(inv_reachable hr).find]; exact h1, h3⟩) h2 hf

/-- Three streams, of which the second is answered first and the first last. -/
example : channelsFrom 0 [⟨7000, 7001⟩, ⟨8000, 8001⟩, ⟨6000, 6001⟩] = [(2, 7000), (3, 7001), (4, 8000), (5, 8001), (6, 6000), (7, 6001)] := by decide

/-- Two SETUP requests over multicast that wait for their answers, and whose feeds are set up by the headers of these. -/
example : ∃ s, Reachable demoWorld s ∧ (s.feeds.map (·.cseq)).Nodup ∧ (pending 3 s.out).map (·.verb) = some b!"SETUP" ∧ (pending 4 s.out).map (·.verb) = some b!"SETUP" ∧
    s.feeds.map (fun f => match f.transportSetup demoWorld.inf (if f.cseq = 3 then b!"RTP/AVP;multicast;port=6000-6001" else b!"RTP/AVP;multicast;port=7000-7001") with
      | .ok (f', none) => some (f'.transp.isTCP, f'.transp.port)
      | _ => none) = [some (false, ⟨6000, 6001⟩), some (false, ⟨7000, 7001⟩)] :=
  ⟨_, ⟨[.open_ b!"rtsp://h/x" .multicast none, demoGot 1 200 [] none, demoGot 2 200 [] (some demoSdp)], rfl⟩, by decide +kernel, by decide +kernel, by decide +kernel, by decide +kernel⟩

/-- Against C150 over UDP: of any two SETUP requests that are granted, the one that is answered first gets the lower channels, whichever stream it is for. If the answers change
places, each stream is reported on the channels of the other. -/
theorem C150_udp_refuted (w : World) (hl : ∀ o k p, w.listen o k p = .ok) (s : Sess) (hr : Reachable w s) (a b : Response) (hab : a.cseq ≠ b.cseq)
    (ha : ∃ q, pending a.cseq s.out = some q ∧ q.verb = b!"SETUP") (hb : ∃ q, pending b.cseq s.out = some q ∧ q.verb = b!"SETUP") (ha2 : a.statusCode = 200)
    (hb2 : b.statusCode = 200) (pre mid post : List Feed) (f g f' g' : Feed) (hf : s.feeds = pre ++ f :: (mid ++ g :: post)) (hfa : f.cseq = a.cseq) (hgb : g.cseq = b.cseq)
    (hno : ∀ x ∈ pre ++ mid ++ post, x.cseq ≠ a.cseq ∧ x.cseq ≠ b.cseq)
    (hfs : f.transportSetup w.inf (a.header.get b!"Transport") = .ok (f', none)) (hgs : g.transportSetup w.inf (b.header.get b!"Transport") = .ok (g', none))
    (hfu : f'.transp.isTCP = false) (hgu : g'.transp.isTCP = false) :
    ∃ t u, Runs w s [.item (.response a), .item (.response b)] t ∧ Runs w s [.item (.response b), .item (.response a)] u ∧
      t.sinks = s.sinks ++ [(UInt8.ofNat (s.feedidx + 1) * 2, f'.transp.port.one), (UInt8.ofNat (s.feedidx + 1) * 2 + 1, f'.transp.port.two),
        (UInt8.ofNat (s.feedidx + 2) * 2, g'.transp.port.one), (UInt8.ofNat (s.feedidx + 2) * 2 + 1, g'.transp.port.two)] ∧
      u.sinks = s.sinks ++ [(UInt8.ofNat (s.feedidx + 1) * 2, g'.transp.port.one), (UInt8.ofNat (s.feedidx + 1) * 2 + 1, g'.transp.port.two),
        (UInt8.ofNat (s.feedidx + 2) * 2, f'.transp.port.one), (UInt8.ofNat (s.feedidx + 2) * 2 + 1, f'.transp.port.two)] := by
  obtain ⟨qa, ha, hav⟩ := ha
  obtain ⟨qb, hb, hbv⟩ := hb
  rw [← (inv_reachable hr).find] at ha hb
  have hfc := transportSetup_cseq hfs
  have hgc := transportSetup_cseq hgs
  have n1 : ∀ x ∈ pre, x.cseq ≠ a.cseq ∧ x.cseq ≠ b.cseq := fun x hx => hno x (by simp [hx])
  have n2 : ∀ x ∈ mid, x.cseq ≠ a.cseq ∧ x.cseq ≠ b.cseq := fun x hx => hno x (by simp [hx])
  have n3 : ∀ x ∈ post, x.cseq ≠ a.cseq ∧ x.cseq ≠ b.cseq := fun x hx => hno x (by simp [hx])
  obtain ⟨t1, a1, a2, a3, a4, a5⟩ := udp_step hl ha hav ha2 hf hfa (fun x hx => (n1 x hx).1) (by
    intro x hx
    rcases List.mem_append.1 hx with hx | hx
    · exact (n2 x hx).1
    · rcases List.mem_cons.1 hx with rfl | hx
      · rw [hgb]; exact hab.symm
      · exact (n3 x hx).1) hfs hfu
  obtain ⟨t, b1, b2, b3, b4, b5⟩ := udp_step (s := t1) (pre := pre ++ f' :: mid) hl (find_kept hb hab a2) hbv hb2 (by rw [a3]; simp) hgb (by
    intro x hx
    rcases List.mem_append.1 hx with hx | hx
    · exact (n1 x hx).2
    · rcases List.mem_cons.1 hx with rfl | hx
      · rw [hfc, hfa]; exact hab
      · exact (n2 x hx).2) (fun x hx => (n3 x hx).2) hgs hgu
  obtain ⟨u1, c1, c2, c3, c4, c5⟩ := udp_step (s := s) (pre := pre ++ f :: mid) hl hb hbv hb2 (by rw [hf]; simp) hgb (by
    intro x hx
    rcases List.mem_append.1 hx with hx | hx
    · exact (n1 x hx).2
    · rcases List.mem_cons.1 hx with rfl | hx
      · rw [hfa]; exact hab
      · exact (n2 x hx).2) (fun x hx => (n3 x hx).2) hgs hgu
  obtain ⟨u, d1, d2, d3, d4, d5⟩ := udp_step (s := u1) (pre := pre) (post := mid ++ g' :: post) hl (find_kept ha hab.symm c2) hav ha2 (by rw [c3]; simp) hfa (fun x hx => (n1 x hx).1) (by
    intro x hx
    rcases List.mem_append.1 hx with hx | hx
    · exact (n2 x hx).1
    · rcases List.mem_cons.1 hx with rfl | hx
      · rw [hgc, hgb]; exact hab.symm
      · exact (n3 x hx).1) hfs hfu
  refine ⟨t, u, .cons a1 (.cons b1 (.nil _)), .cons c1 (.cons d1 (.nil _)), ?_, ?_⟩
  · rw [b5, a5, a4, List.append_assoc]; rfl
  · rw [d5, c5, c4, List.append_assoc]; rfl

/-- Two streams over multicast, with different ports. -/
example : ∃ t u, run demoWorld newSession ([.open_ b!"rtsp://h/x" .multicast none, demoGot 1 200 [] none, demoGot 2 200 [] (some demoSdp)] ++
      [demoGot 3 200 [(b!"Transport", b!"RTP/AVP;multicast;port=6000-6001")] none, demoGot 4 200 [(b!"Transport", b!"RTP/AVP;multicast;port=7000-7001")] none]) = .ok t ∧
    run demoWorld newSession ([.open_ b!"rtsp://h/x" .multicast none, demoGot 1 200 [] none, demoGot 2 200 [] (some demoSdp)] ++
      [demoGot 4 200 [(b!"Transport", b!"RTP/AVP;multicast;port=7000-7001")] none, demoGot 3 200 [(b!"Transport", b!"RTP/AVP;multicast;port=6000-6001")] none]) = .ok u ∧
    t.sinks = [(2, 6000), (3, 6001), (4, 7000), (5, 7001)] ∧ u.sinks = [(2, 7000), (3, 7001), (4, 6000), (5, 6001)] :=
  ⟨_, _, rfl, rfl, by decide, by decide⟩

end Ouro
