import Verif.Lemmas.SessionInv
import Verif.Lemmas.Early
/-! # The setup of feeds: counting requests and answers -/
namespace Ouro
open Spec

/-- How many requests in the queue have a verb. -/
def cnt (v : Bytes) (q : List (Int × Request)) : Nat := (q.filter fun e => e.2.verb = v).length

theorem cnt_filter (v : Bytes) (q : List (Int × Request)) (c : Int) : cnt v (q.filter fun e => e.1 ≠ c) ≤ cnt v q := by
  unfold cnt
  exact (List.Sublist.filter _ (List.filter_sublist (l := q))).length_le

theorem cnt_found (v : Bytes) (q : List (Int × Request)) (c : Int) (req : Request) (h : (q.find? fun e => e.1 = c).map (·.2) = some req) (hv : req.verb = v) :
    cnt v (q.filter fun e => e.1 ≠ c) + 1 ≤ cnt v q := by
  induction q with
  | nil => cases h
  | cons e q ih =>
    by_cases he : e.1 = c
    · rw [List.find?_cons_of_pos (by simpa using he)] at h
      injection h with h
      dsimp only at h
      rw [List.filter_cons_of_neg (by simpa using he)]
      have h1 := cnt_filter v q c
      have h2 : cnt v (e :: q) = cnt v q + 1 := by
        unfold cnt
        rw [List.filter_cons_of_pos (by rw [h]; simpa using hv)]
        rfl
      omega
    · rw [List.find?_cons_of_neg (by simpa using he)] at h
      have ih := ih h
      rw [List.filter_cons_of_pos (by simpa using he)]
      unfold cnt at ih ⊢
      by_cases hw : e.2.verb = v
      · rw [List.filter_cons_of_pos (by simpa using hw), List.filter_cons_of_pos (by simpa using hw)]
        simp only [List.length_cons]; omega
      · rw [List.filter_cons_of_neg (by simpa using hw), List.filter_cons_of_neg (by simpa using hw)]
        exact ih

theorem cnt_insert (v : Bytes) (q : List (Int × Request)) (req : Request) : cnt v (insertReq q req) ≤ cnt v q + if req.verb = v then 1 else 0 := by
  unfold insertReq
  have h := cnt_filter v q req.cseq
  have h2 : cnt v (q.filter (fun e => e.1 ≠ req.cseq) ++ [(req.cseq, req)]) = cnt v (q.filter fun e => e.1 ≠ req.cseq) + if req.verb = v then 1 else 0 := by
    unfold cnt
    rw [List.filter_append, List.length_append]
    congr 1
    by_cases hv : req.verb = v
    · rw [if_pos hv, List.filter_cons_of_pos (by simpa using hv)]; rfl
    · rw [if_neg hv, List.filter_cons_of_neg (by simpa using hv)]; rfl
  omega

/-- No request with the verb is in the queue. -/
theorem cnt_zero {v : Bytes} {q : List (Int × Request)} (h : cnt v q = 0) {c : Int} {req : Request} (hf : (q.find? fun e => e.1 = c).map (·.2) = some req) : req.verb ≠ v :=
  fun hv => by have := cnt_found v q c req hf hv; omega

/-- What is known when Ready is reported. -/
def ReadyFact : Out → List Out → Prop
  | .notified st, b => st = 1 → (∀ c req, pending c b = some req → req.verb ≠ b!"SETUP") ∧ setupsAnswered b = setupsSent b ∧ 0 < setupsSent b
  | _, _ => True

/-- The invariant. `d`: a description has been received. -/
structure Counts (d : Nat) (s : Sess) : Prop where
  fresh : d = 0 → s.feeds = [] ∧ s.feedidx = 0 ∧ setupsSent s.out = 0
  once : cnt b!"DESCRIBE" s.queue + (if s.stage = 0 then cnt b!"OPTIONS" s.queue else 0) + d ≤ 1
  open_ : cnt b!"SETUP" s.queue + setupsAnswered s.out ≤ setupsSent s.out
  sent : setupsSent s.out ≤ s.feeds.length
  idx : s.feedidx ≤ setupsAnswered s.out
  seqs : ∀ c : Int, c ≠ 0 → (s.feeds.map Feed.cseq).count c ≤ 1
  past : Past ReadyFact s.out

/-- A command other than SETUP, and other than OPTIONS or DESCRIBE unless this is allowed for. -/
theorem counts_command {w : World} {d : Nat} {s s' : Sess} {verb uri : Bytes} {hs : Header} {e : Option SErr} (h : Counts d s)
    (hc : command w s verb uri hs = .ok (s', e)) (hv : verb ≠ b!"SETUP")
    (hon : cnt b!"DESCRIBE" s.queue + (if verb = b!"DESCRIBE" then 1 else 0) + (if s.stage = 0 then cnt b!"OPTIONS" s.queue + (if verb = b!"OPTIONS" then 1 else 0) else 0) + d ≤ 1) :
    Counts d s' := by
  rcases command_out hc with ⟨_, rfl, _⟩ | ⟨_, _, a, x, res, rfl, _⟩
  · exact h
  · have e1 : ∀ r, setupsSent (.sent false ⟨verb, s.cseq + 1, uri, a, s.session, r⟩ res :: s.out) = setupsSent s.out := fun r => by
      show setupsSent s.out + (if verb = b!"SETUP" then 1 else 0) = _
      rw [if_neg hv]; rfl
    have c1 := cnt_insert b!"DESCRIBE" s.queue ⟨verb, s.cseq + 1, uri, a, s.session, hs.foldl (fun h e => h.set e.1 e.2) []⟩
    have c2 := cnt_insert b!"OPTIONS" s.queue ⟨verb, s.cseq + 1, uri, a, s.session, hs.foldl (fun h e => h.set e.1 e.2) []⟩
    have c3 := cnt_insert b!"SETUP" s.queue ⟨verb, s.cseq + 1, uri, a, s.session, hs.foldl (fun h e => h.set e.1 e.2) []⟩
    dsimp only at c1 c2 c3
    rw [if_neg hv] at c3
    refine ⟨fun hd => ?_, ?_, ?_, ?_, h.idx, h.seqs, trivial, h.past⟩
    · obtain ⟨f1, f2, f3⟩ := h.fresh hd
      exact ⟨f1, f2, (e1 _).trans f3⟩
    · dsimp only
      by_cases hst : s.stage = 0
      · rw [if_pos hst] at hon ⊢
        omega
      · rw [if_neg hst] at hon ⊢
        omega
    · dsimp only
      rw [e1]
      show cnt _ _ + setupsAnswered s.out ≤ _
      have := h.open_
      omega
    · dsimp only
      rw [e1]; exact h.sent

/-- The loop of `Setup`. -/
theorem counts_setupLoop {w : World} (fs : List Feed) : ∀ {done : List Feed} {s s' : Sess} {e : Option SErr},
    setupLoop w done fs s = .ok (s', e) → s.feeds = done ++ fs → (∀ f ∈ fs, f.cseq = 0) → setupsSent s.out ≤ done.length →
    (∀ f ∈ done, f.cseq ≤ s.cseq) → (∀ c : Int, c ≠ 0 → (done.map Feed.cseq).count c ≤ 1) → Counts 1 s → Counts 1 s' := by
  induction fs with
  | nil =>
    intro done s s' e h _ _ _ _ _ hc
    injection h with h; injection h with h _; subst h; exact hc
  | cons f fs ih =>
    intro done s s' e h hf h0 hs hle hn hc
    unfold setupLoop at h
    cases hcmd : command w s verbSetup (setupURI s.baseURI f.media.control) [(b!"Transport", f.transportHeader)] with
    | error p => rw [hcmd] at h; cases h
    | ok r =>
      obtain ⟨t, x⟩ := r
      rw [hcmd] at h
      rcases command_out hcmd with ⟨_, rfl, rfl⟩ | ⟨_, _, a, x', res, rfl, _⟩
      · injection h with h; injection h with h _; subst h; exact hc
      · generalize hreq : (⟨verbSetup, (s.cseq : Int) + 1, setupURI s.baseURI f.media.control, a, s.session, _⟩ : Request) = req at *
        have hv : req.verb = b!"SETUP" := by rw [← hreq]; rfl
        have e1 : setupsSent (.sent false req res :: s.out) = setupsSent s.out + 1 := by rw [setupsSent, if_pos hv]
        have c1 := cnt_insert b!"DESCRIBE" s.queue req
        have c2 := cnt_insert b!"OPTIONS" s.queue req
        have c3 := cnt_insert b!"SETUP" s.queue req
        rw [hv] at c1 c2 c3
        rw [if_neg (by decide)] at c1 c2
        rw [if_pos rfl] at c3
        have hon : cnt b!"DESCRIBE" (insertReq s.queue req) + (if s.stage = 0 then cnt b!"OPTIONS" (insertReq s.queue req) else 0) + 1 ≤ 1 := by
          have := hc.once
          by_cases hst : s.stage = 0
          · rw [if_pos hst] at this ⊢; omega
          · rw [if_neg hst] at this ⊢; omega
        have hop : cnt b!"SETUP" (insertReq s.queue req) + setupsAnswered s.out ≤ setupsSent s.out + 1 := by
          have := hc.open_; omega
        have hcount : ∀ c : Int, c ≠ 0 → ((done ++ [{ f with cseq := ((s.cseq + 1 : Nat) : Int) }]).map Feed.cseq).count c ≤ 1 := by
          intro c hc0
          rw [List.map_append, List.count_append]
          show _ + List.count c [((s.cseq + 1 : Nat) : Int)] ≤ 1
          by_cases hce : c = ((s.cseq + 1 : Nat) : Int)
          · have : (done.map Feed.cseq).count c = 0 := by
              rw [List.count_eq_zero]
              intro hm
              obtain ⟨g, hg, hgc⟩ := List.mem_map.1 hm
              have := hle g hg
              omega
            rw [this, hce]; simp
          · rw [List.count_cons_of_ne (fun e => hce e.symm)]
            have := hn c hc0
            simpa using this
        cases x with
        | some x =>
          injection h with h; injection h with h _; subst h
          refine ⟨fun hd => by (cases hd), hon, ?_, ?_, hc.idx, hc.seqs, trivial, hc.past⟩
          · dsimp only; rw [e1]; exact hop
          · dsimp only; rw [e1, hf]; simp only [List.length_append, List.length_cons]; omega
        | none =>
          refine ih h (by simp) (fun g hg => h0 g (by simp [hg])) ?_ ?_ hcount ?_
          · dsimp only
            rw [e1]; simp only [List.length_append, List.length_cons, List.length_nil]; omega
          · intro g hg
            rw [List.mem_append] at hg
            dsimp only
            rcases hg with hg | hg
            · have := hle g hg; omega
            · rw [List.mem_singleton] at hg; rw [hg]; exact Int.le_refl _
          · refine ⟨fun hd => by (cases hd), hon, ?_, ?_, hc.idx, ?_, trivial, hc.past⟩
            · dsimp only; rw [e1]; exact hop
            · dsimp only; rw [e1]; simp only [List.length_append, List.length_cons]; omega
            · intro c hc0
              dsimp only
              rw [show done ++ { f with cseq := ((s.cseq + 1 : Nat) : Int) } :: fs = (done ++ [{ f with cseq := ((s.cseq + 1 : Nat) : Int) }]) ++ fs by simp]
              rw [List.map_append, List.count_append]
              have z : (fs.map Feed.cseq).count c = 0 := by
                rw [List.count_eq_zero]
                intro hm
                obtain ⟨g, hg, hgc⟩ := List.mem_map.1 hm
                exact hc0 (by rw [← hgc]; exact h0 g (by simp [hg]))
              have := hcount c hc0
              omega

theorem transportSetup_cseq {inf : Nat} {f f' : Feed} {v : Bytes} {e : Option FeedErr} (h : f.transportSetup inf v = .ok (f', e)) : f'.cseq = f.cseq := by
  unfold Feed.transportSetup at h
  split at h
  · injection h with h; injection h with h _; rw [← h]
  · cases hs : spropLoop inf f.sets f.media.spropParameterSets with
    | error p => rw [hs] at h; cases h
    | ok r =>
      obtain ⟨x, y⟩ := r
      rw [hs] at h
      cases y with
      | some y => injection h with h; injection h with h _; rw [← h]
      | none => injection h with h; injection h with h _; rw [← h]

/-- The rest of the state is the same. -/
def SameRest (s t : Sess) : Prop := t.stage = s.stage ∧ t.opened = s.opened ∧ t.proto = s.proto ∧ t.baseURI = s.baseURI ∧ t.user = s.user

theorem SameRest.refl (s : Sess) : SameRest s s := ⟨rfl, rfl, rfl, rfl, rfl⟩

theorem SameRest.trans {s t u : Sess} (h1 : SameRest s t) (h2 : SameRest t u) : SameRest s u :=
  ⟨h2.1.trans h1.1, h2.2.1.trans h1.2.1, h2.2.2.1.trans h1.2.2.1, h2.2.2.2.1.trans h1.2.2.2.1, h2.2.2.2.2.trans h1.2.2.2.2⟩

theorem addSink_rest (w : World) (s : Sess) (ch : UInt8) (port : Int) :
    SameRest s (addSink w s ch port).1 ∧ (addSink w s ch port).1.feeds = s.feeds ∧ (addSink w s ch port).1.feedidx = s.feedidx := by
  unfold addSink; split <;> exact ⟨⟨rfl, rfl, rfl, rfl, rfl⟩, rfl, rfl⟩

/-- What the loop over the feeds does with them. -/
theorem setupAnswer_feeds {w : World} {rsp : Response} (fs : List Feed) : ∀ {done : List Feed} {s s' : Sess} {e : Option SErr},
    setupAnswer w rsp done fs s = .ok (s', e) → s.feeds = done ++ fs →
    SameRest s s' ∧ s'.feeds.map Feed.cseq = s.feeds.map Feed.cseq ∧ s'.feedidx ≤ s.feedidx + (fs.map Feed.cseq).count rsp.cseq ∧
    (e = none → s'.feedidx = s.feedidx + (fs.map Feed.cseq).count rsp.cseq) := by
  induction fs with
  | nil => intro done s s' e h _; injection h with h; injection h with h _; subst h; exact ⟨.refl _, rfl, Nat.le_refl _, fun _ => rfl⟩
  | cons f fs ih =>
    intro done s s' e h hf
    unfold setupAnswer at h
    by_cases hc : f.cseq = rsp.cseq
    · have hcount : ((f :: fs).map Feed.cseq).count rsp.cseq = (fs.map Feed.cseq).count rsp.cseq + 1 := by
        rw [List.map_cons, hc, List.count_cons_self]
      rw [hcount]
      rw [if_pos hc] at h
      cases ht : f.transportSetup w.inf (rsp.header.get b!"Transport") with
      | error p => rw [ht] at h; cases h
      | ok r =>
        obtain ⟨f', x⟩ := r
        have hseq := transportSetup_cseq ht
        have hmap : (done ++ f' :: fs).map Feed.cseq = s.feeds.map Feed.cseq := by
          rw [hf, List.map_append, List.map_append, List.map_cons, List.map_cons, hseq]
        rw [ht] at h
        dsimp only at h
        cases x with
        | some x =>
          injection h with h; injection h with h he; subst h
          exact ⟨⟨rfl, rfl, rfl, rfl, rfl⟩, hmap, by dsimp only; omega, fun hn => by rw [hn] at he; cases he⟩
        | none =>
          dsimp only at h
          split at h
          · obtain ⟨i1, i2, i3, i4⟩ := ih h (by simp)
            exact ⟨SameRest.trans ⟨rfl, rfl, rfl, rfl, rfl⟩ i1, i2.trans hmap, by dsimp only at i3; omega, fun hn => by have := i4 hn; dsimp only at this; omega⟩
          · have a1 := addSink_rest w { s with feedidx := s.feedidx + 1, feeds := done ++ f' :: fs } (UInt8.ofNat (s.feedidx + 1) * 2) f'.transp.port.one
            split at h
            · next s1 e1 h1 =>
              injection h with h; injection h with h he; subst h
              rw [h1] at a1
              obtain ⟨b1, b2, b3⟩ := a1
              dsimp only at b2 b3
              exact ⟨SameRest.trans ⟨rfl, rfl, rfl, rfl, rfl⟩ b1, by rw [b2]; exact hmap, by omega, fun hn => by rw [hn] at he; cases he⟩
            · next s1 h1 =>
              rw [h1] at a1
              obtain ⟨b1, b2, b3⟩ := a1
              dsimp only at b2 b3
              have b1 := SameRest.trans (s := s) ⟨rfl, rfl, rfl, rfl, rfl⟩ b1
              have a2 := addSink_rest w s1 (UInt8.ofNat (s.feedidx + 1) * 2 + 1) f'.transp.port.two
              split at h
              · next s2 e2 h2 =>
                injection h with h; injection h with h he; subst h
                rw [h2] at a2
                obtain ⟨d1, d2, d3⟩ := a2
                dsimp only at d2 d3
                exact ⟨b1.trans d1, by rw [d2, b2]; exact hmap, by omega, fun hn => by rw [hn] at he; cases he⟩
              · next s2 h2 =>
                rw [h2] at a2
                obtain ⟨d1, d2, d3⟩ := a2
                dsimp only at d2 d3
                obtain ⟨i1, i2, i3, i4⟩ := ih h (by rw [d2, b2]; simp)
                exact ⟨(b1.trans d1).trans i1, by rw [i2, d2, b2]; exact hmap, by omega, fun hn => by have := i4 hn; omega⟩
    · have hcount : ((f :: fs).map Feed.cseq).count rsp.cseq = (fs.map Feed.cseq).count rsp.cseq := by
        rw [List.map_cons, List.count_cons_of_ne hc]
      rw [hcount]
      rw [if_neg hc] at h
      exact ih h (by rw [hf]; simp)

theorem feedsFrom_cseq (proto : Proto) (ms : List Media) : ∀ k, ∀ f ∈ feedsFrom proto k ms, f.cseq = 0 := by
  induction ms with
  | nil => intro k f hf; cases hf
  | cons m ms ih =>
    intro k f hf
    rcases List.mem_cons.1 hf with rfl | hf
    · rfl
    · exact ih _ f hf

theorem parseFeeds_cseq {proto : Proto} {buf : Bytes} {fs : List Feed} (h : parseFeeds proto buf = .ok fs) : ∀ f ∈ fs, f.cseq = 0 := by
  unfold parseFeeds at h
  cases hs : sdpParse buf with
  | error p => rw [hs] at h; cases h
  | ok ms => rw [hs] at h; injection h with h; subst h; exact feedsFrom_cseq _ _ _

/-- Reporting Ready. -/
theorem counts_checkReady {s : Sess} (h : Counts 1 s) (hi : ∀ c, s.find c = pending c s.out) (hpos : 0 < setupsAnswered s.out) :
    Counts 1 (checkReady s) ∧ (checkReady s).feeds = s.feeds := by
  unfold checkReady
  split
  · next hge =>
    refine ⟨⟨fun hd => by (cases hd), ?_, h.open_, h.sent, h.idx, h.seqs, trivial, fun _ => ?_, h.past⟩, rfl⟩
    · have := h.once
      show cnt _ s.queue + (if stageReady = 0 then cnt _ s.queue else 0) + 1 ≤ 1
      rw [if_neg (by decide)]
      omega
    · have h1 := h.open_
      have h2 := h.sent
      have h3 := h.idx
      refine ⟨fun c req hp => ?_, by omega, by omega⟩
      rw [← hi] at hp
      exact cnt_zero (by omega) hp
  · exact ⟨h, rfl⟩

/-- A pending request is answered: what is left in the queue. -/
theorem counts_took {d : Nat} {s : Sess} {rsp : Response} {req : Request} (h : Counts d s) (hi : ∀ c, s.find c = pending c s.out)
    (hf : s.find rsp.cseq = some req) (x : Bytes) : ∀ o, (o = [.got rsp] ∨ ∃ st, st ≠ 1 ∧ o = [.notified st, .got rsp]) →
    Counts d { s with queue := s.queue.filter (fun e => e.1 ≠ rsp.cseq), session := x, out := o ++ s.out } := by
  intro o ho
  have hle := cnt_filter b!"SETUP" s.queue rsp.cseq
  have hD := cnt_filter b!"DESCRIBE" s.queue rsp.cseq
  have hO := cnt_filter b!"OPTIONS" s.queue rsp.cseq
  have e1 : setupsSent (o ++ s.out) = setupsSent s.out := by rcases ho with rfl | ⟨st, _, rfl⟩ <;> rfl
  have hp : pending rsp.cseq s.out = some req := by rw [← hi]; exact hf
  have e2 : setupsAnswered (o ++ s.out) = setupsAnswered s.out + if rsp.statusCode ≠ 401 ∧ req.verb = b!"SETUP" then 1 else 0 := by
    have : setupsAnswered (.got rsp :: s.out) = setupsAnswered s.out + if rsp.statusCode ≠ 401 ∧ req.verb = b!"SETUP" then 1 else 0 := by
      rw [setupsAnswered, hp]
      simp
    rcases ho with rfl | ⟨st, _, rfl⟩ <;> exact this
  have hS : cnt b!"SETUP" (s.queue.filter fun e => e.1 ≠ rsp.cseq) + (if rsp.statusCode ≠ 401 ∧ req.verb = b!"SETUP" then 1 else 0) ≤ cnt b!"SETUP" s.queue := by
    split
    · next hc => exact cnt_found _ _ _ _ hf hc.2
    · omega
  refine ⟨fun hd => ?_, ?_, ?_, ?_, ?_, h.seqs, ?_⟩
  · obtain ⟨f1, f2, f3⟩ := h.fresh hd
    exact ⟨f1, f2, e1.trans f3⟩
  · have := h.once
    dsimp only
    by_cases hst : s.stage = 0
    · rw [if_pos hst] at this ⊢; omega
    · rw [if_neg hst] at this ⊢; omega
  · dsimp only; rw [e1, e2]; have := h.open_; omega
  · dsimp only; rw [e1]; exact h.sent
  · dsimp only; rw [e2]; have := h.idx; omega
  · rcases ho with rfl | ⟨st, hst, rfl⟩
    · exact ⟨trivial, h.past⟩
    · exact ⟨fun e => absurd e hst, trivial, h.past⟩

/-- The stage is not `StageInit`. -/
theorem counts_stage {d : Nat} {s : Sess} (h : Counts d s) (st : Nat) (hst : st ≠ 0) : Counts d { s with stage := st } := by
  refine ⟨h.fresh, ?_, h.open_, h.sent, h.idx, h.seqs, h.past⟩
  have := h.once
  dsimp only
  rw [if_neg hst]
  omega

/-- The same with other feeds. -/
theorem counts_answered {s t : Sess} (h : Counts 1 s) (hq : t.queue = s.queue) (ho : t.out = s.out) (hst : t.stage = s.stage)
    (hf : t.feeds.map Feed.cseq = s.feeds.map Feed.cseq) (hi : t.feedidx ≤ setupsAnswered s.out) : Counts 1 t := by
  refine ⟨fun hd => by (cases hd), ?_, ?_, ?_, ?_, ?_, ?_⟩
  · rw [hq, hst]; exact h.once
  · rw [hq, ho]; exact h.open_
  · have := congrArg List.length hf
    simp only [List.length_map] at this
    rw [ho, this]; exact h.sent
  · rw [ho]; exact hi
  · rw [hf]; exact h.seqs
  · rw [ho]; exact h.past

theorem command_feeds {w : World} {s s' : Sess} {verb uri : Bytes} {hs : Header} {e : Option SErr} (h : command w s verb uri hs = .ok (s', e)) : s'.feeds = s.feeds := by
  rcases command_out h with ⟨_, rfl, _⟩ | ⟨_, _, a, x, res, rfl, _⟩ <;> rfl

/-- A response. -/
theorem counts_response {w : World} {d : Nat} {s s' : Sess} {rsp : Response} {e : Option SErr} (inv : Inv s) (h : Counts d s)
    (hs : handleItem w s (.response rsp) = .ok (s', e)) : ∃ d', Counts d' s' ∧ (d = 1 → d' = 1 ∧ s'.feeds.length = s.feeds.length) := by
  have hs : handleRtsp w { s with out := .got rsp :: s.out } rsp = .ok (s', e) := hs
  unfold handleRtsp at hs
  cases hf : s.find rsp.cseq with
  | none =>
    rw [show ({ s with out := .got rsp :: s.out } : Sess).find rsp.cseq = none from hf] at hs
    injection hs with hs; injection hs with hs _; subst hs
    have hp : pending rsp.cseq s.out = none := by rw [← inv.find]; exact hf
    have e2 : setupsAnswered (.got rsp :: s.out) = setupsAnswered s.out := by rw [setupsAnswered, hp]; simp
    exact ⟨d, ⟨h.fresh, h.once, by dsimp only; rw [e2]; exact h.open_, h.sent, by dsimp only; rw [e2]; exact h.idx, h.seqs, trivial, h.past⟩, fun hd => ⟨hd, rfl⟩⟩
  | some req =>
    rw [show ({ s with out := .got rsp :: s.out } : Sess).find rsp.cseq = some req from hf] at hs
    dsimp only at hs
    by_cases h401 : rsp.statusCode = 401
    · rw [if_pos h401] at hs
      have ht := counts_took h inv.find hf s.session [.got rsp] (.inl rfl)
      rcases retry_out hs with ⟨x, rfl, _⟩ | ⟨a, x, res, rfl, _⟩
      · exact ⟨d, ⟨ht.fresh, ht.once, ht.open_, ht.sent, ht.idx, ht.seqs, ht.past⟩, fun hd => ⟨hd, rfl⟩⟩
      · -- the request is in the queue again
        generalize hreq : ({ req with auth := a, cseq := _, session := _ } : Request) = again
        have hv : again.verb = req.verb := by rw [← hreq]
        have key : ∀ v, cnt v (insertReq (s.queue.filter fun e => e.1 ≠ rsp.cseq) again) ≤ cnt v s.queue := by
          intro v
          have := cnt_insert v (s.queue.filter fun e => e.1 ≠ rsp.cseq) again
          rw [hv] at this
          by_cases hvv : req.verb = v
          · rw [if_pos hvv] at this
            have := cnt_found v s.queue rsp.cseq req hf hvv
            omega
          · rw [if_neg hvv] at this
            have := cnt_filter v s.queue rsp.cseq
            omega
        have e2 : setupsAnswered (.sent true again res :: .got rsp :: s.out) = setupsAnswered s.out := by
          rw [setupsAnswered, setupsAnswered, if_neg (fun x => x.1 h401)]
          · rfl
          · intro r hr; cases hr
        refine ⟨d, ⟨h.fresh, ?_, ?_, h.sent, ?_, h.seqs, trivial, trivial, h.past⟩, fun hd => ⟨hd, rfl⟩⟩
        · have := h.once
          have k1 := key b!"DESCRIBE"
          have k2 := key b!"OPTIONS"
          show cnt _ (insertReq (s.queue.filter fun e => e.1 ≠ rsp.cseq) again) + (if s.stage = 0 then cnt _ (insertReq (s.queue.filter fun e => e.1 ≠ rsp.cseq) again) else 0) + d ≤ 1
          by_cases hst : s.stage = 0
          · rw [if_pos hst] at this ⊢; omega
          · rw [if_neg hst] at this ⊢; omega
        · have k3 := key b!"SETUP"
          have := h.open_
          show cnt _ (insertReq (s.queue.filter fun e => e.1 ≠ rsp.cseq) again) + setupsAnswered (.sent true again res :: .got rsp :: s.out) ≤ setupsSent s.out
          rw [e2]
          omega
        · show s.feedidx ≤ setupsAnswered (.sent true again res :: .got rsp :: s.out)
          rw [e2]; exact h.idx
    · rw [if_neg h401, learnSession_eq] at hs
      dsimp only [Sess.remove] at hs
      have ht : ∀ o, (o = [.got rsp] ∨ ∃ st, st ≠ 1 ∧ o = [.notified st, .got rsp]) → Counts d { s with queue := s.queue.filter (fun e => e.1 ≠ rsp.cseq), session := learned s.session (rsp.header.get b!"Session"), out := o ++ s.out } :=
        counts_took h inv.find hf _
      have t0 := ht [.got rsp] (.inl rfl)
      have hi : ∀ c, ({ s with queue := s.queue.filter (fun e => e.1 ≠ rsp.cseq), session := learned s.session (rsp.header.get b!"Session"), out := [Out.got rsp] ++ s.out } : Sess).find c = pending c (.got rsp :: s.out) := by
        intro c
        show ((s.queue.filter fun e => e.1 ≠ rsp.cseq).find? fun e => e.1 = c).map (·.2) = _
        rw [find_filter, pending]
        by_cases hk : c = rsp.cseq
        · rw [if_pos hk, if_pos hk.symm]
        · rw [if_neg hk, if_neg (fun e => hk e.symm)]; exact inv.find c
      have pass : ∀ st, st ≠ 0 → st ≠ 1 → Counts d (notify { s with queue := s.queue.filter (fun e => e.1 ≠ rsp.cseq), session := learned s.session (rsp.header.get b!"Session"), out := [Out.got rsp] ++ s.out } st) :=
        fun st h0 h1 => counts_stage (ht [.notified st, .got rsp] (.inr ⟨st, h1, rfl⟩)) st h0
      unfold answer at hs
      split at hs
      · next hv =>
        split at hs
        · next hst =>
          have hs := deref_ok hs
          refine ⟨d, counts_command ?_ hs (by decide) ?_, fun hd => ⟨hd, by rw [command_feeds hs]⟩⟩
          · exact ⟨t0.fresh, t0.once, t0.open_, t0.sent, t0.idx, t0.seqs, t0.past⟩
          have := h.once
          have k1 := cnt_filter b!"DESCRIBE" s.queue rsp.cseq
          have k2 := cnt_found b!"OPTIONS" s.queue rsp.cseq req hf hv
          have hst : s.stage = 0 := hst
          rw [if_pos hst] at this
          show cnt _ (s.queue.filter fun e => e.1 ≠ rsp.cseq) + (if verbDescribe = b!"DESCRIBE" then 1 else 0) + (if s.stage = 0 then cnt _ (s.queue.filter fun e => e.1 ≠ rsp.cseq) + (if verbDescribe = b!"OPTIONS" then 1 else 0) else 0) + d ≤ 1
          rw [if_pos (show verbDescribe = b!"DESCRIBE" from rfl), if_pos hst, if_neg (show ¬ verbDescribe = b!"OPTIONS" by decide)]
          omega
        · injection hs with hs; injection hs with hs _; subst hs; exact ⟨d, t0, fun hd => ⟨hd, rfl⟩⟩
      · split at hs
        · next hv =>
          split at hs
          · next body hb =>
            split at hs
            · cases hs
            · next feeds hp =>
              have k1 := cnt_found b!"DESCRIBE" s.queue rsp.cseq req hf hv
              have hon := h.once
              have hd : d = 0 := by omega
              subst hd
              obtain ⟨f1, f2, f3⟩ := t0.fresh rfl
              have h0 := parseFeeds_cseq hp
              refine ⟨1, counts_setupLoop _ hs rfl h0 (Nat.le_of_eq f3) (fun f hf => by (cases hf)) (fun c hc => by simp) ?_, fun hd => by (cases hd)⟩
              refine ⟨fun hd => by (cases hd), ?_, t0.open_, ?_, t0.idx, ?_, t0.past⟩
              · have k2 := cnt_filter b!"OPTIONS" s.queue rsp.cseq
                dsimp only
                by_cases hst : s.stage = 0
                · rw [if_pos hst] at hon ⊢; omega
                · rw [if_neg hst] at hon ⊢; omega
              · exact Nat.le_trans (Nat.le_of_eq f3) (Nat.zero_le _)
              · intro c hc
                have : (feeds.map Feed.cseq).count c = 0 := by
                  rw [List.count_eq_zero]
                  intro hm
                  obtain ⟨g, hg, hgc⟩ := List.mem_map.1 hm
                  exact hc (by rw [← hgc]; exact h0 g hg)
                show (feeds.map Feed.cseq).count c ≤ 1
                omega
          · injection hs with hs; injection hs with hs _; subst hs; exact ⟨d, t0, fun hd => ⟨hd, rfl⟩⟩
        · split at hs
          · injection hs with hs; injection hs with hs _; subst hs
            split
            · exact ⟨d, pass 3 (by decide) (by decide), fun hd => ⟨hd, rfl⟩⟩
            · exact ⟨d, t0, fun hd => ⟨hd, rfl⟩⟩
          · split at hs
            · injection hs with hs; injection hs with hs _; subst hs
              split
              · exact ⟨d, pass 2 (by decide) (by decide), fun hd => ⟨hd, rfl⟩⟩
              · exact ⟨d, t0, fun hd => ⟨hd, rfl⟩⟩
            · split at hs
              · injection hs with hs; injection hs with hs _; subst hs
                split
                · exact ⟨d, pass 4 (by decide) (by decide), fun hd => ⟨hd, rfl⟩⟩
                · exact ⟨d, t0, fun hd => ⟨hd, rfl⟩⟩
              · split at hs
                · next hv =>
                  have k1 := cnt_found b!"SETUP" s.queue rsp.cseq req hf hv
                  have ho := h.open_
                  have hd : d = 1 := by
                    have hon := h.once
                    rcases Nat.eq_zero_or_pos d with hd | hd
                    · have := (h.fresh hd).2.2; omega
                    · omega
                  subst hd
                  have hans : setupsAnswered ([Out.got rsp] ++ s.out) = setupsAnswered s.out + 1 := by
                    show setupsAnswered (.got rsp :: s.out) = _
                    rw [setupsAnswered, if_pos ⟨h401, by rw [← inv.find, hf, ← show req.verb = b!"SETUP" from hv]; rfl⟩]
                  have hr := inv.range rsp.cseq req (by rw [← inv.find]; exact hf)
                  have hcount := h.seqs rsp.cseq (by omega)
                  have hidx := h.idx
                  unfold handleSetup at hs
                  split at hs
                  · split at hs
                    · cases hs
                    · next t x hsa =>
                      injection hs with hs; injection hs with hs _; subst hs
                      obtain ⟨g1, g2, g3, g4⟩ := setupAnswer_core _ hsa
                      obtain ⟨r1, r2, r3, _⟩ := setupAnswer_feeds _ hsa rfl
                      have hlen : t.feeds.length = s.feeds.length := by
                        have := congrArg List.length r2
                        simpa using this
                      exact ⟨1, counts_answered t0 g2 g4 r1.1 r2 (by rw [hans]; dsimp only at r3; omega), fun _ => ⟨rfl, hlen⟩⟩
                    · next t hsa =>
                      injection hs with hs; injection hs with hs _; subst hs
                      obtain ⟨g1, g2, g3, g4⟩ := setupAnswer_core _ hsa
                      obtain ⟨r1, r2, r3, _⟩ := setupAnswer_feeds _ hsa rfl
                      have hlen : t.feeds.length = s.feeds.length := by
                        have := congrArg List.length r2
                        simpa using this
                      have hr := counts_checkReady (counts_answered t0 g2 g4 r1.1 r2 (by rw [hans]; dsimp only at r3; omega)) ?_ (by
                        rw [g4]; show 0 < setupsAnswered ([Out.got rsp] ++ s.out); rw [hans]; exact Nat.succ_pos _)
                      · exact ⟨1, hr.1, fun _ => ⟨rfl, by rw [hr.2, hlen]⟩⟩
                      intro c
                      rw [g4]
                      refine Eq.trans ?_ (hi c)
                      unfold Sess.find
                      rw [g2]
                  · injection hs with hs; injection hs with hs _; subst hs
                    have hr := counts_checkReady (counts_answered t0 rfl rfl rfl rfl (t := { s with queue := s.queue.filter (fun e => e.1 ≠ rsp.cseq), session := learned s.session (rsp.header.get b!"Session"), feedidx := s.feedidx + 1, out := [Out.got rsp] ++ s.out }) (by
                      rw [hans]
                      exact Nat.succ_le_succ hidx)) hi (by
                        show 0 < setupsAnswered ([Out.got rsp] ++ s.out)
                        rw [hans]; exact Nat.succ_pos _)
                    exact ⟨1, hr.1, fun _ => ⟨rfl, congrArg List.length hr.2⟩⟩
                · injection hs with hs; injection hs with hs _; subst hs; exact ⟨d, t0, fun hd => ⟨hd, rfl⟩⟩

/-- Every operation of a user who leaves OPTIONS, DESCRIBE and SETUP to the session. -/
theorem counts_step {w : World} {d : Nat} {s s' : Sess} {op : Op} {e : Option SErr} (hop : Plain op) (inv : Inv s) (h : Counts d s)
    (hs : step w s op = .ok (s', e)) : ∃ d', Counts d' s' ∧ (d = 1 → d' = 1 ∧ s'.feeds.length = s.feeds.length) := by
  have other : ∀ {verb : Bytes}, verb ≠ b!"SETUP" → verb ≠ b!"DESCRIBE" → verb ≠ b!"OPTIONS" → ∀ {uri : Bytes} {hd : Header},
      command w s verb uri hd = .ok (s', e) → ∃ d', Counts d' s' ∧ (d = 1 → d' = 1 ∧ s'.feeds.length = s.feeds.length) := by
    intro verb h1 h2 h3 uri hd hc
    refine ⟨d, counts_command h hc h1 ?_, fun hd => ⟨hd, by rw [command_feeds hc]⟩⟩
    have := h.once
    rw [if_neg h2, if_neg h3]
    exact this
  cases op with
  | dial uri proto user => exact hop.elim
  | open_ uri proto user => exact hop.elim
  | options => exact hop.elim
  | describe => exact hop.elim
  | setup => exact hop.elim
  | play => exact other (by decide) (by decide) (by decide) (deref_ok hs)
  | pause => exact other (by decide) (by decide) (by decide) (deref_ok hs)
  | teardown => exact other (by decide) (by decide) (by decide) (deref_ok hs)
  | keepAlive due =>
    have hs := deref_ok hs
    split at hs
    · next hc =>
      refine ⟨d, counts_command h hs (by decide) ?_, fun hd => ⟨hd, by rw [command_feeds hs]⟩⟩
      have := h.once
      have hst : s.stage ≠ 0 := fun e => by have := hc.2.2.1; rw [e] at this; exact absurd this (by decide)
      rw [if_neg hst] at this ⊢
      rw [if_neg (show ¬ verbOptions = b!"DESCRIBE" by decide)]
      exact this
    · injection hs with hs; injection hs with hs _; subst hs; exact ⟨d, h, fun hd => ⟨hd, rfl⟩⟩
  | item i =>
    cases i with
    | frame ch p =>
      injection hs with hs; injection hs with hs _; subst hs
      exact ⟨d, ⟨h.fresh, h.once, h.open_, h.sent, h.idx, h.seqs, trivial, h.past⟩, fun hd => ⟨hd, rfl⟩⟩
    | response rsp => exact counts_response inv h hs

theorem counts_run {w : World} (ops : List Op) : ∀ {d : Nat} {s s' : Sess}, (∀ op ∈ ops, Plain op) → Inv s → Counts d s → run w s ops = .ok s' →
    ∃ d', Counts d' s' ∧ (d = 1 → d' = 1 ∧ s'.feeds.length = s.feeds.length) := by
  induction ops with
  | nil => intro d s s' _ _ h hr; injection hr with hr; subst hr; exact ⟨d, h, fun hd => ⟨hd, rfl⟩⟩
  | cons op ops ih =>
    intro d s s' hop inv h hr
    unfold run at hr
    cases hs : step w s op with
    | error p => rw [hs] at hr; cases hr
    | ok r =>
      obtain ⟨t, e⟩ := r
      rw [hs] at hr
      obtain ⟨d', h', k1⟩ := counts_step (hop op (by simp)) inv h hs
      obtain ⟨d2, h2, k2⟩ := ih (fun o ho => hop o (by simp [ho])) (inv_prims (step_prims hs) inv) h' hr
      exact ⟨d2, h2, fun hd => ⟨(k2 (k1 hd).1).1, (k2 (k1 hd).1).2.trans (k1 hd).2⟩⟩

theorem plain_counts {w : World} {s : Sess} (h : PlainReachable w s) : ∃ d, Counts d s := by
  obtain ⟨uri, proto, user, early, o, t, e, ops, ho, hop, _, hd, hs, hr⟩ := plain_begin h
  have hpast : Past ReadyFact o := by
    clear hs hd
    induction o with
    | nil => trivial
    | cons x o ih =>
      have hx := ho x (by simp)
      refine ⟨?_, ih fun y hy => ho y (by simp [hy])⟩
      rcases hx with ⟨ch, p, rfl⟩ | ⟨rsp, rfl⟩ <;> trivial
  have h0 : Counts 0 (dialled uri proto user o) :=
    ⟨fun _ => ⟨rfl, rfl, incoming0_setupsSent ho⟩, show (0 : Nat) ≤ 1 by decide, by
      show 0 + setupsAnswered o ≤ setupsSent o
      rw [incoming0_setupsAnswered ho, incoming0_setupsSent ho]; exact Nat.le_refl 0, Nat.le_of_eq (incoming0_setupsSent ho), Nat.zero_le _,
      fun c _ => by simp [dialled, newSession], hpast⟩
  have h1 : Counts 0 t := counts_command h0 hs (by decide) (by
    show (1 : Nat) ≤ 1
    decide)
  obtain ⟨d, h, _⟩ := counts_run ops hop (inv_prims ((run_prims _ hd).trans (step_prims (op := .options) hs)) inv_new) h1 hr
  exact ⟨d, h⟩

theorem PlainReachable.reachable {w : World} {s : Sess} (h : PlainReachable w s) : Reachable w s := by
  obtain ⟨uri, proto, user, early, ops, _, _, hr⟩ := h
  exact ⟨_, hr⟩

end Ouro
