import Verif.Lemmas.Setup
import Verif.Props.Session
/-! # The setup of feeds: all requests are answered -/
namespace Ouro
open Spec

/-- What `Open` sets is the same. -/
def SameStatic (s t : Sess) : Prop := t.opened = s.opened ∧ t.proto = s.proto ∧ t.baseURI = s.baseURI ∧ t.user = s.user

theorem SameStatic.refl (s : Sess) : SameStatic s s := ⟨rfl, rfl, rfl, rfl⟩

theorem SameStatic.trans {s t u : Sess} (h1 : SameStatic s t) (h2 : SameStatic t u) : SameStatic s u :=
  ⟨h2.1.trans h1.1, h2.2.1.trans h1.2.1, h2.2.2.1.trans h1.2.2.1, h2.2.2.2.trans h1.2.2.2⟩

theorem SameStatic.after {s t u : Sess} (h : SameStatic t u) (h1 : t.opened = s.opened) (h2 : t.proto = s.proto) (h3 : t.baseURI = s.baseURI)
    (h4 : t.user = s.user) : SameStatic s u := SameStatic.trans ⟨h1, h2, h3, h4⟩ h

theorem SameRest.static {s t : Sess} (h : SameRest s t) : SameStatic s t := h.2

theorem command_static {w : World} {s s' : Sess} {verb uri : Bytes} {hs : Header} {e : Option SErr} (h : command w s verb uri hs = .ok (s', e)) : SameStatic s s' := by
  rcases command_out h with ⟨_, rfl, _⟩ | ⟨_, _, a, x, res, rfl, _⟩ <;> exact ⟨rfl, rfl, rfl, rfl⟩

theorem setupLoop_static {w : World} (fs : List Feed) : ∀ {done : List Feed} {s s' : Sess} {e : Option SErr},
    setupLoop w done fs s = .ok (s', e) → SameStatic s s' := by
  induction fs with
  | nil => intro done s s' e h; injection h with h; injection h with h _; subst h; exact .refl _
  | cons f fs ih =>
    intro done s s' e h
    unfold setupLoop at h
    cases hc : command w s verbSetup (setupURI s.baseURI f.media.control) [(b!"Transport", f.transportHeader)] with
    | error p => rw [hc] at h; cases h
    | ok r =>
      obtain ⟨t, x⟩ := r
      have hp := command_static hc
      rw [hc] at h
      cases x with
      | some x => injection h with h; injection h with h _; subst h; exact hp
      | none => exact hp.trans (SameStatic.after (ih h) rfl rfl rfl rfl)

theorem checkReady_static (s : Sess) : SameStatic s (checkReady s) := by
  unfold checkReady; split <;> exact ⟨rfl, rfl, rfl, rfl⟩

theorem handleSetup_static {w : World} {s s' : Sess} {rsp : Response} {e : Option SErr} (h : handleSetup w s rsp = .ok (s', e)) : SameStatic s s' := by
  unfold handleSetup at h
  split at h
  · split at h
    · cases h
    · next t x ht =>
      injection h with h; injection h with h _; subst h
      exact (setupAnswer_feeds _ ht rfl).1.static
    · next t ht =>
      injection h with h; injection h with h _; subst h
      exact (setupAnswer_feeds _ ht rfl).1.static.trans (checkReady_static t)
  · split at h
    · injection h with h; injection h with h _; subst h
      exact SameStatic.after (checkReady_static _) rfl rfl rfl rfl
    · injection h with h; injection h with h _; subst h
      exact checkReady_static s

theorem answer_static {w : World} {s s' : Sess} {verb : Bytes} {rsp : Response} {e : Option SErr} (h : answer w s verb rsp = .ok (s', e)) : SameStatic s s' := by
  unfold answer at h
  split at h
  · split at h
    · exact SameStatic.after (command_static (deref_ok h)) rfl rfl rfl rfl
    · injection h with h; injection h with h _; subst h; exact .refl _
  · split at h
    · split at h
      · split at h
        · cases h
        · exact SameStatic.after (setupLoop_static _ h) rfl rfl rfl rfl
      · injection h with h; injection h with h _; subst h; exact .refl _
    · split at h
      · injection h with h; injection h with h _; subst h; split <;> exact ⟨rfl, rfl, rfl, rfl⟩
      · split at h
        · injection h with h; injection h with h _; subst h; split <;> exact ⟨rfl, rfl, rfl, rfl⟩
        · split at h
          · injection h with h; injection h with h _; subst h; split <;> exact ⟨rfl, rfl, rfl, rfl⟩
          · split at h
            · exact handleSetup_static h
            · injection h with h; injection h with h _; subst h; exact .refl _

/-- Only `Open` changes it. -/
theorem step_static {w : World} {s s' : Sess} {op : Op} {e : Option SErr} (hop : ¬ Opens op) (h : step w s op = .ok (s', e)) : SameStatic s s' := by
  cases op with
  | dial uri proto user => exact absurd trivial hop
  | open_ uri proto user => exact absurd trivial hop
  | options => exact command_static (deref_ok h)
  | describe => exact command_static (deref_ok h)
  | setup => exact setupLoop_static _ h
  | play => exact command_static (deref_ok h)
  | pause => exact command_static (deref_ok h)
  | teardown => exact command_static (deref_ok h)
  | keepAlive due =>
    have h := deref_ok h
    split at h
    · exact command_static h
    · injection h with h; injection h with h _; subst h; exact .refl _
  | item i =>
    cases i with
    | frame ch p => injection h with h; injection h with h _; subst h; exact ⟨rfl, rfl, rfl, rfl⟩
    | response rsp =>
      have h : handleRtsp w { s with out := .got rsp :: s.out } rsp = .ok (s', e) := h
      unfold handleRtsp at h
      split at h
      · injection h with h; injection h with h _; subst h; exact ⟨rfl, rfl, rfl, rfl⟩
      · split at h
        · rcases retry_out h with ⟨x, rfl, _⟩ | ⟨a, x, res, rfl, _⟩ <;> exact ⟨rfl, rfl, rfl, rfl⟩
        · rw [learnSession_eq] at h
          exact SameStatic.after (answer_static h) rfl rfl rfl rfl

theorem run_static {w : World} (ops : List Op) : ∀ {s s' : Sess}, (∀ op ∈ ops, ¬ Opens op) → run w s ops = .ok s' → SameStatic s s' := by
  induction ops with
  | nil => intro s s' _ h; injection h with h; subst h; exact .refl _
  | cons op ops ih =>
    intro s s' hop h
    unfold run at h
    cases hs : step w s op with
    | error p => rw [hs] at h; cases h
    | ok r =>
      obtain ⟨t, e⟩ := r
      rw [hs] at h
      exact (step_static (hop op (by simp)) hs).trans (ih (fun o ho => hop o (by simp [ho])) h)

theorem opens_cases {op : Op} (h : Opens op) : (∃ a b c, op = .dial a b c) ∨ ∃ a b c, op = .open_ a b c := by
  cases op with
  | dial a b c => exact .inl ⟨a, b, c, rfl⟩
  | open_ a b c => exact .inr ⟨a, b, c, rfl⟩
  | _ => exact h.elim

theorem plain_not_open {op : Op} (h : Plain op) : ¬ Opens op := fun e => by cases op <;> first | exact h | exact e

theorem plain_static {w : World} {s : Sess} (h : PlainReachable w s) : s.opened = true ∧ s.proto ≠ .http := by
  obtain ⟨uri, proto, user, early, o, t, e, ops, _, hop, _, _, hs, hr⟩ := plain_begin h
  have h1 := run_static ops (fun op ho => plain_not_open (hop op ho)) hr
  rcases command_out hs with ⟨hf, _, _⟩ | ⟨_, hp, a, x, res, rfl, _⟩
  · cases hf
  · exact ⟨h1.1, by rw [h1.2.1]; exact hp⟩

/-- Commands work. -/
theorem command_ok {w : World} (hw : ∀ o b, w.write o b = .ok) {s : Sess} (ho : s.opened = true) (hp : s.proto ≠ .http) (verb uri : Bytes) (hs : Header) :
    ∃ s', command w s verb uri hs = .ok (s', none) := by
  unfold command
  rw [if_neg (by rw [ho]; decide)]
  have : ∃ a x, callAuth w s verb = .ok (a, { s with auth := x }) := by
    unfold callAuth
    cases h : s.auth with
    | none => exact ⟨[], none, by rw [show ({ s with auth := none } : Sess) = s by rw [← h]]; rfl⟩
    | some fd =>
      obtain ⟨f, d⟩ := fd
      obtain ⟨⟨a, d'⟩, h1⟩ := authCall_ok w.md5 f d verb []
      dsimp only
      rw [h1]
      exact ⟨_, _, rfl⟩
  obtain ⟨a, x, h⟩ := this
  rw [h]
  dsimp only [enqueue]
  unfold writeReq
  rw [if_neg hp]
  dsimp only
  rw [hw]
  exact ⟨_, rfl⟩

/-- The feeds with their CSeq numbers. -/
def numberFrom (k : Nat) : List Feed → List Feed
  | [] => []
  | f :: fs => { f with cseq := ((k + 1 : Nat) : Int) } :: numberFrom (k + 1) fs

theorem numberFrom_cseq (fs : List Feed) : ∀ k, (numberFrom k fs).map Feed.cseq = numbers k fs.length := by
  induction fs with
  | nil => intro k; rfl
  | cons f fs ih =>
    intro k
    show ((k + 1 : Nat) : Int) :: (numberFrom (k + 1) fs).map Feed.cseq = _
    rw [ih]
    unfold numbers
    rw [List.length_cons, List.range_succ_eq_map, List.map_cons, List.map_map]
    refine List.cons_eq_cons.2 ⟨by simp, List.map_congr_left fun i _ => ?_⟩
    simp only [Function.comp_apply]
    omega

theorem numberFrom_mem (fs : List Feed) : ∀ k, ∀ g ∈ numberFrom k fs, ∃ (i : Nat) (f : Feed), fs[i]? = some f ∧ g = { f with cseq := (k : Int) + 1 + i } := by
  induction fs with
  | nil => intro k g hg; cases hg
  | cons f fs ih =>
    intro k g hg
    rcases List.mem_cons.1 hg with rfl | hg
    · exact ⟨0, f, rfl, by simp⟩
    · obtain ⟨i, f', h1, h2⟩ := ih (k + 1) g hg
      refine ⟨i + 1, f', by simpa using h1, ?_⟩
      rw [h2]
      congr 1
      omega

/-- The loop of `Setup` when all commands work. -/
theorem setupLoop_ok {w : World} (hw : ∀ o b, w.write o b = .ok) (fs : List Feed) : ∀ (done : List Feed) (s : Sess), s.opened = true → s.proto ≠ .http → s.feeds = done ++ fs →
    ∃ s', setupLoop w done fs s = .ok (s', none) ∧ s'.feeds = done ++ numberFrom s.cseq fs ∧ s'.feedidx = s.feedidx ∧ s'.cseq = s.cseq + fs.length ∧
      readies s'.out = readies s.out ∧ (∀ c : Int, c ≤ s.cseq → s'.find c = s.find c) ∧
      ∀ i, i < fs.length → ∃ q, s'.find (s.cseq + 1 + i) = some q ∧ q.verb = b!"SETUP" := by
  induction fs with
  | nil =>
    intro done s _ _ hf
    exact ⟨s, rfl, by rw [hf]; rfl, rfl, rfl, rfl, fun _ _ => rfl, fun i hi => absurd hi (Nat.not_lt_zero i)⟩
  | cons f fs ih =>
    intro done s ho hp hf
    obtain ⟨t, ht⟩ := command_ok hw ho hp verbSetup (setupURI s.baseURI f.media.control) [(b!"Transport", f.transportHeader)]
    unfold setupLoop
    rw [ht]
    dsimp only
    rcases command_out ht with ⟨_, _, h⟩ | ⟨_, _, a, x, res, rfl, _⟩
    · cases h
    · generalize hreq : (⟨verbSetup, (s.cseq : Int) + 1, setupURI s.baseURI f.media.control, a, s.session, _⟩ : Request) = req at *
      have hseq : req.cseq = (s.cseq : Int) + 1 := by rw [← hreq]
      have hv : req.verb = b!"SETUP" := by rw [← hreq]; rfl
      obtain ⟨s', h1, h2, h3, h4, h5, h6, h7⟩ := ih (done ++ [{ f with cseq := ((s.cseq + 1 : Nat) : Int) }])
        { s with auth := x, cseq := s.cseq + 1, queue := insertReq s.queue req, out := .sent false req res :: s.out, feeds := done ++ { f with cseq := ((s.cseq + 1 : Nat) : Int) } :: fs }
        ho hp (by simp)
      have hfind : ∀ c, ({ s with auth := x, cseq := s.cseq + 1, queue := insertReq s.queue req, out := .sent false req res :: s.out, feeds := done ++ { f with cseq := ((s.cseq + 1 : Nat) : Int) } :: fs } : Sess).find c =
          if req.cseq = c then some req else s.find c := fun c => find_insert s.queue req c
      refine ⟨s', h1, ?_, h3, ?_, h5, ?_, ?_⟩
      · rw [h2]
        simp [numberFrom]
      · rw [h4]; simp only [List.length_cons]; omega
      · intro c hc
        rw [h6 c (by dsimp only; omega), hfind, if_neg (by omega)]
      · intro i hi
        cases i with
        | zero => exact ⟨req, by rw [h6 _ (by dsimp only; omega), hfind, if_pos (by omega)], hv⟩
        | succ i =>
          obtain ⟨q, hq, hqv⟩ := h7 i (by simp only [List.length_cons] at hi; omega)
          refine ⟨q, ?_, hqv⟩
          rw [← hq]
          congr 1
          dsimp only
          omega

theorem transportSetup_number {inf : Nat} {f f' : Feed} {v : Bytes} (c : Int) (h : f.transportSetup inf v = .ok (f', none)) :
    ∃ g, ({ f with cseq := c } : Feed).transportSetup inf v = .ok (g, none) := by
  unfold Feed.transportSetup at h ⊢
  dsimp only
  split at h
  · next ht => injection h with h; injection h with _ h; cases h
  · next t ht =>
    cases hs : spropLoop inf f.sets f.media.spropParameterSets with
    | error p => rw [hs] at h; cases h
    | ok r =>
      obtain ⟨x, y⟩ := r
      rw [hs] at h
      cases y with
      | some y => injection h with h; injection h with _ h; cases h
      | none => exact ⟨_, rfl⟩

/-- The loop over the feeds when everything works. -/
theorem setupAnswer_ok {w : World} (hl : ∀ o k p, w.listen o k p = .ok) {rsp : Response} (fs : List Feed) : ∀ (done : List Feed) (s : Sess), s.feeds = done ++ fs →
    (∀ f ∈ fs, f.cseq = rsp.cseq → ∃ f', f.transportSetup w.inf (rsp.header.get b!"Transport") = .ok (f', none)) →
    ∃ s', setupAnswer w rsp done fs s = .ok (s', none) ∧ ∀ g ∈ s'.feeds, g.cseq = rsp.cseq ∨ g ∈ s.feeds := by
  have hadd : ∀ (s : Sess) ch p, addSink w s ch p = ({ s with sinks := s.sinks ++ [(ch, p)] }, none) := fun s ch p => by
    unfold addSink; rw [hl]
  induction fs with
  | nil => intro done s _ _; exact ⟨s, rfl, fun g hg => .inr hg⟩
  | cons f fs ih =>
    intro done s hf hgood
    unfold setupAnswer
    by_cases hc : f.cseq = rsp.cseq
    · rw [if_pos hc]
      obtain ⟨f', hf'⟩ := hgood f (by simp) hc
      have hseq := transportSetup_cseq hf'
      rw [hf']
      dsimp only
      have cont : ∀ t : Sess, t.feeds = done ++ f' :: fs → ∃ s', setupAnswer w rsp (done ++ [f']) fs t = .ok (s', none) ∧ ∀ g ∈ s'.feeds, g.cseq = rsp.cseq ∨ g ∈ s.feeds := by
        intro t ht
        obtain ⟨s', h1, h2⟩ := ih (done ++ [f']) t (by rw [ht]; simp) (fun g hg => hgood g (by simp [hg]))
        refine ⟨s', h1, fun g hg => ?_⟩
        rcases h2 g hg with h | h
        · exact .inl h
        · rw [ht] at h
          rcases List.mem_append.1 h with h | h
          · exact .inr (by rw [hf]; simp [h])
          · rcases List.mem_cons.1 h with rfl | h
            · exact .inl (hseq.trans hc)
            · exact .inr (by rw [hf]; simp [h])
      split
      · exact cont _ rfl
      · rw [hadd]
        dsimp only
        rw [hadd]
        exact cont _ rfl
    · rw [if_neg hc]
      exact ih _ s (by rw [hf]; simp) (fun g hg => hgood g (by simp [hg]))

theorem numbers_nodup (k n : Nat) : (numbers k n).Nodup := by
  unfold numbers
  rw [List.Nodup, List.pairwise_map]
  exact List.Pairwise.imp (fun hlt e => by omega) (List.pairwise_lt_range)

theorem numbers_mem {k n : Nat} {c : Int} (h : c ∈ numbers k n) : (k : Int) + 1 ≤ c ∧ c ≤ k + n := by
  unfold numbers at h
  obtain ⟨i, hi, rfl⟩ := List.mem_map.1 h
  rw [List.mem_range] at hi
  omega

/-- A response that completes the SETUP with its CSeq, where the first was numbered `k + 1`: not a 401, and if it is a 200, the feed accepts its Transport header. -/
def Completes (w : World) (k : Nat) (feeds : List Feed) (rsp : Response) : Prop :=
  rsp.statusCode ≠ 401 ∧ (rsp.statusCode = 200 → ∀ (i : Nat) (f : Feed), feeds[i]? = some f → rsp.cseq = (k : Int) + 1 + i →
    ∃ f', f.transportSetup w.inf (rsp.header.get b!"Transport") = .ok (f', none))

/-- The state while the SETUP requests with the numbers `cs` wait for an answer. -/
structure Waiting (k : Nat) (feeds : List Feed) (cs : List Int) (s : Sess) : Prop where
  opened : s.opened = true
  proto : s.proto ≠ .http
  seqs : s.feeds.map Feed.cseq = numbers k feeds.length
  idx : s.feedidx + cs.length = feeds.length
  sub : ∀ c ∈ cs, c ∈ numbers k feeds.length
  nodup : cs.Nodup
  find : ∀ c ∈ cs, ∃ q, s.find c = some q ∧ q.verb = b!"SETUP"
  le : k + feeds.length ≤ s.cseq
  orig : ∀ g ∈ s.feeds, g.cseq ∈ cs → ∃ (i : Nat) (f : Feed), feeds[i]? = some f ∧ g = { f with cseq := (k : Int) + 1 + i }

theorem waiting_command {w : World} (hw : ∀ o b, w.write o b = .ok) {k : Nat} {feeds : List Feed} {cs : List Int} {s : Sess} (h : Waiting k feeds cs s)
    (verb uri : Bytes) (hs : Header) : ∃ s', command w s verb uri hs = .ok (s', none) ∧ Waiting k feeds cs s' ∧ readies s'.out = readies s.out := by
  obtain ⟨t, ht⟩ := command_ok hw h.opened h.proto verb uri hs
  refine ⟨t, ht, ?_⟩
  rcases command_out ht with ⟨_, _, h⟩ | ⟨_, _, a, x, res, rfl, _⟩
  · cases h
  · refine ⟨⟨h.opened, h.proto, h.seqs, h.idx, h.sub, h.nodup, fun c hc => ?_, Nat.le_succ_of_le h.le, h.orig⟩, rfl⟩
    obtain ⟨q, hq, hv⟩ := h.find c hc
    refine ⟨q, (find_insert _ _ _).trans ?_, hv⟩
    dsimp only
    have h1 := numbers_mem (h.sub c hc)
    have h2 := h.le
    rw [if_neg (by omega)]
    exact hq

theorem checkReady_wait {s : Sess} (h : s.feedidx < s.feeds.length) : checkReady s = s := by
  unfold checkReady; rw [if_neg (by omega)]

theorem checkReady_done {s : Sess} (h : s.feedidx = s.feeds.length) :
    checkReady s = { s with stage := 1, out := .started s.sinks :: .notified 1 :: s.out } := by
  unfold checkReady; rw [if_pos (by omega)]; rfl

theorem erase_length {c : Int} {cs : List Int} (h : c ∈ cs) : (cs.erase c).length + 1 = cs.length := by
  have := List.length_erase_of_mem h
  have : 0 < cs.length := List.length_pos_of_mem h
  omega

/-- One answer. -/
theorem waiting_answer {w : World} (hl : ∀ o k p, w.listen o k p = .ok) {k : Nat} {feeds : List Feed} {cs : List Int} {s : Sess} (h : Waiting k feeds cs s)
    {rsp : Response} (hc : rsp.cseq ∈ cs) (hg : Completes w k feeds rsp) :
    ∃ s', step w s (.item (.response rsp)) = .ok (s', none) ∧
      ((cs.erase rsp.cseq ≠ [] ∧ Waiting k feeds (cs.erase rsp.cseq) s' ∧ readies s'.out = readies s.out) ∨
       (cs.erase rsp.cseq = [] ∧ ∃ sinks, s'.out = .started sinks :: .notified 1 :: .got rsp :: s.out)) := by
  obtain ⟨q, hq, hv⟩ := h.find _ hc
  have hlen := erase_length hc
  have hfl : s.feeds.length = feeds.length := by
    have := congrArg List.length h.seqs
    simpa [numbers] using this
  have hcount : (s.feeds.map Feed.cseq).count rsp.cseq = 1 := by
    rw [h.seqs]
    have h1 := List.nodup_iff_count.1 (numbers_nodup k feeds.length) rsp.cseq
    have h2 := List.count_pos_iff.2 (h.sub _ hc)
    omega
  -- the state when the feeds have been updated
  have fin : ∀ t : Sess, SameStatic s t → t.feeds.map Feed.cseq = s.feeds.map Feed.cseq → t.feedidx = s.feedidx + 1 →
      (∀ c, c ≠ rsp.cseq → t.find c = s.find c) → t.cseq = s.cseq → (∀ g ∈ t.feeds, g.cseq = rsp.cseq ∨ g ∈ s.feeds) → t.out = .got rsp :: s.out →
      ((cs.erase rsp.cseq ≠ [] ∧ Waiting k feeds (cs.erase rsp.cseq) (checkReady t) ∧ readies (checkReady t).out = readies s.out) ∨
       (cs.erase rsp.cseq = [] ∧ ∃ sinks, (checkReady t).out = .started sinks :: .notified 1 :: .got rsp :: s.out)) := by
    intro t h1 h2 h3 h4 h5 h6 h7
    have htl : t.feeds.length = feeds.length := by
      have := congrArg List.length h2
      simp only [List.length_map] at this
      omega
    have hidx := h.idx
    by_cases he : cs.erase rsp.cseq = []
    · right
      refine ⟨he, ?_⟩
      rw [he] at hlen
      simp only [List.length_nil] at hlen
      rw [checkReady_done (by omega)]
      exact ⟨t.sinks, by rw [h7]⟩
    · left
      have : 0 < (cs.erase rsp.cseq).length := by
        cases hx : cs.erase rsp.cseq with
        | nil => exact absurd hx he
        | cons a b => simp
      refine ⟨he, ?_, ?_⟩
      · rw [checkReady_wait (by omega)]
        refine ⟨by rw [h1.1]; exact h.opened, by rw [h1.2.1]; exact h.proto, h2.trans h.seqs, by omega, fun c hce => h.sub c (List.mem_of_mem_erase hce),
          h.nodup.erase _, fun c hce => ?_, by rw [h5]; exact h.le, fun g hg hce => ?_⟩
        · have hm := (List.Nodup.mem_erase_iff h.nodup).1 hce
          rw [h4 c hm.1]
          exact h.find c hm.2
        · have hm := (List.Nodup.mem_erase_iff h.nodup).1 hce
          rcases h6 g hg with he | hgs
          · exact absurd he hm.1
          · exact h.orig g hgs hm.2
      · rw [checkReady_wait (by omega), h7]; rfl
  show ∃ s', handleRtsp w { s with out := .got rsp :: s.out } rsp = .ok (s', none) ∧ _
  unfold handleRtsp
  rw [show ({ s with out := .got rsp :: s.out } : Sess).find rsp.cseq = some q from hq]
  dsimp only
  rw [if_neg hg.1, learnSession_eq]
  dsimp only [Sess.remove]
  generalize learned s.session (rsp.header.get b!"Session") = sid
  unfold answer
  rw [hv, if_neg (by decide), if_neg (by decide), if_neg (by decide), if_neg (by decide), if_neg (by decide), if_pos (by decide)]
  have hfind : ∀ c, c ≠ rsp.cseq → (((s.queue.filter fun e => e.1 ≠ rsp.cseq).find? fun e => e.1 = c).map (·.2)) = s.find c := fun c hne => by
    rw [find_filter, if_neg hne]; rfl
  unfold handleSetup
  by_cases h200 : rsp.statusCode = 200
  · rw [if_pos h200]
    dsimp only
    obtain ⟨t, ht, hmem⟩ := setupAnswer_ok hl s.feeds [] { s with queue := s.queue.filter (fun e => e.1 ≠ rsp.cseq), session := sid, out := .got rsp :: s.out } rfl (fun f hf hfc => by
      obtain ⟨i, f0, h1, h2⟩ := h.orig f hf (by rw [hfc]; exact hc)
      have hi : rsp.cseq = (k : Int) + 1 + i := by rw [← hfc, h2]
      obtain ⟨f', hf'⟩ := hg.2 h200 i f0 h1 hi
      rw [h2]
      exact transportSetup_number _ hf')
    rw [ht]
    obtain ⟨c1, c2, c3, c4⟩ := setupAnswer_core _ ht
    obtain ⟨r1, r2, _, r4⟩ := setupAnswer_feeds _ ht rfl
    refine ⟨_, rfl, fin t (SameStatic.after r1.static rfl rfl rfl rfl) r2 ((r4 rfl).trans ?_) ?_ c1 hmem c4⟩
    · dsimp only; rw [hcount]
    · intro c hne
      unfold Sess.find
      rw [c2]
      exact hfind c hne
  · rw [if_neg h200, if_pos hg.1]
    exact ⟨_, rfl, fin { s with queue := s.queue.filter (fun e => e.1 ≠ rsp.cseq), session := sid, feedidx := s.feedidx + 1, out := .got rsp :: s.out } ⟨rfl, rfl, rfl, rfl⟩ rfl rfl hfind rfl (fun g hg => .inr hg) rfl⟩

/-- All answers. -/
theorem waiting_all {w : World} (hw : ∀ o b, w.write o b = .ok) (hl : ∀ o k p, w.listen o k p = .ok) {k : Nat} {feeds : List Feed} {cs : List Int} {ops : List Op}
    (ha : Answered (Completes w k feeds) cs ops) (hne : cs ≠ []) : ∀ {s : Sess}, Waiting k feeds cs s →
    ∃ s' sinks rest, Runs w s ops s' ∧ s'.out = .started sinks :: .notified 1 :: rest ∧ readies rest = readies s.out := by
  induction ha with
  | done => exact absurd rfl hne
  | @answer cs ops rsp hc hg hrest ih =>
    intro s h
    obtain ⟨t, ht, h1 | ⟨h1, sinks, h2⟩⟩ := waiting_answer hl h hc hg
    · obtain ⟨s', sinks, rest, i1, i2, i3⟩ := ih h1.1 h1.2.1
      exact ⟨s', sinks, rest, .cons ht i1, i2, i3.trans h1.2.2⟩
    · rw [h1] at hrest
      have : ops = [] := by
        cases hrest with
        | done => rfl
        | answer hm _ _ => cases hm
        | packet _ _ hn => exact absurd rfl hn
        | play hn => exact absurd rfl hn
        | pause hn => exact absurd rfl hn
        | teardown hn => exact absurd rfl hn
        | keepAlive _ hn => exact absurd rfl hn
      subst this
      exact ⟨t, sinks, _, .cons ht (.nil _), h2, rfl⟩
  | packet ch p hn _ ih =>
    intro s h
    obtain ⟨s', sinks, rest, i1, i2, i3⟩ := ih hn (s := { s with out := .data ch p :: s.out }) ⟨h.opened, h.proto, h.seqs, h.idx, h.sub, h.nodup, h.find, h.le, h.orig⟩
    exact ⟨s', sinks, rest, .cons rfl i1, i2, i3⟩
  | play hn _ ih =>
    intro s h
    obtain ⟨t, ht, h1, h2⟩ := waiting_command hw h verbPlay s.baseURI []
    obtain ⟨s', sinks, rest, i1, i2, i3⟩ := ih hn h1
    exact ⟨s', sinks, rest, .cons ((deref_open h.opened).trans ht) i1, i2, i3.trans h2⟩
  | pause hn _ ih =>
    intro s h
    obtain ⟨t, ht, h1, h2⟩ := waiting_command hw h verbPause s.baseURI []
    obtain ⟨s', sinks, rest, i1, i2, i3⟩ := ih hn h1
    exact ⟨s', sinks, rest, .cons ((deref_open h.opened).trans ht) i1, i2, i3.trans h2⟩
  | teardown hn _ ih =>
    intro s h
    obtain ⟨t, ht, h1, h2⟩ := waiting_command hw h verbTeardown s.baseURI []
    obtain ⟨s', sinks, rest, i1, i2, i3⟩ := ih hn h1
    exact ⟨s', sinks, rest, .cons ((deref_open h.opened).trans ht) i1, i2, i3.trans h2⟩
  | @keepAlive cs ops due hn _ ih =>
    intro s h
    have : ∃ t, s.keepAlive w due = .ok (t, none) ∧ Waiting k feeds cs t ∧ readies t.out = readies s.out := by
      unfold Sess.keepAlive
      rw [deref_open h.opened]
      split
      · exact waiting_command hw h _ _ _
      · exact ⟨s, rfl, h, rfl⟩
    obtain ⟨t, ht, h1, h2⟩ := this
    obtain ⟨s', sinks, rest, i1, i2, i3⟩ := ih hn h1
    exact ⟨s', sinks, rest, .cons ht i1, i2, i3.trans h2⟩

end Ouro
