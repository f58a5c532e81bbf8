import Verif.Props.CrashClient
/-! # C75: exactly what makes the session and the client panic -/
namespace Ouro
open Spec

/-- The numbers of the SETUP requests kept with the feeds: 0 for none, otherwise all different. -/
def FeedNums (s : Sess) : Prop := (∀ x ∈ s.feeds.map (·.cseq), x ≤ (s.cseq : Int)) ∧ (s.feeds.map (·.cseq)).Pairwise fun a b => a = b → a = 0

theorem FeedNums.mono {s s' : Sess} (h : FeedNums s) (hf : s'.feeds.map (·.cseq) = s.feeds.map (·.cseq)) (hc : s.cseq ≤ s'.cseq) : FeedNums s' := by
  refine ⟨fun x hx => ?_, by rw [hf]; exact h.2⟩
  rw [hf] at hx
  have := h.1 x hx
  omega

theorem command_numbers {w : World} {s s' : Sess} {verb uri : Bytes} {hs : Header} {e : Option SErr} (h : command w s verb uri hs = .ok (s', e)) :
    s'.feeds = s.feeds ∧ s.cseq ≤ s'.cseq ∧ (e = none → s'.cseq = s.cseq + 1) := by
  rcases command_out h with ⟨_, rfl, rfl⟩ | ⟨_, _, a, x, res, rfl, _⟩
  · exact ⟨rfl, Nat.le_refl _, fun h => by (cases h)⟩
  · exact ⟨rfl, Nat.le_succ _, fun _ => rfl⟩

theorem command_nums {w : World} {s s' : Sess} {verb uri : Bytes} {hs : Header} {e : Option SErr} (h : command w s verb uri hs = .ok (s', e)) (hn : FeedNums s) :
    FeedNums s' := by
  obtain ⟨h1, h2, _⟩ := command_numbers h
  exact hn.mono (by rw [h1]) h2

theorem setupLoop_nums {w : World} (fs : List Feed) : ∀ {done : List Feed} {s s' : Sess} {e : Option SErr}, setupLoop w done fs s = .ok (s', e) →
    s.feeds = done ++ fs → FeedNums s → FeedNums s' := by
  induction fs with
  | nil => intro done s s' e h _ hn; injection h with h; injection h with h _; subst h; exact hn
  | cons f fs ih =>
    intro done s s' e h hf hn
    unfold setupLoop at h
    cases hc : command w s verbSetup (setupURI s.baseURI f.media.control) [(b!"Transport", f.transportHeader)] with
    | error p => rw [hc] at h; cases h
    | ok r =>
      obtain ⟨t, e1⟩ := r
      rw [hc] at h
      obtain ⟨h1, h2, h3⟩ := command_numbers hc
      cases e1 with
      | some e1 => injection h with h; injection h with h _; subst h; exact command_nums hc hn
      | none =>
        dsimp only at h
        have hseq := h3 rfl
        refine ih h (by simp) ?_
        unfold FeedNums at hn ⊢
        rw [hf] at hn
        simp only [List.map_append, List.map_cons, List.pairwise_append, List.pairwise_cons, List.mem_append, List.mem_cons] at hn ⊢
        obtain ⟨hle, hd, ⟨hfs, hfs'⟩, hx⟩ := hn
        refine ⟨?_, hd, ⟨?_, hfs'⟩, ?_⟩
        · rintro x (hx | rfl | hx)
          · have := hle x (.inl hx); omega
          · exact Int.le_refl _
          · have := hle x (.inr (.inr hx)); omega
        · intro b hb e
          have := hle b (.inr (.inr hb))
          omega
        · rintro a ha b (rfl | hb) e
          · have := hle a (.inl ha); omega
          · exact hx a ha b (.inr hb) e

theorem addSink_feeds (w : World) (s : Sess) (ch : UInt8) (port : Int) : (addSink w s ch port).1.feeds = s.feeds := by
  unfold addSink; split <;> rfl

theorem setupAnswer_nums {w : World} {rsp : Response} (fs : List Feed) : ∀ {done : List Feed} {s s' : Sess} {e : Option SErr},
    setupAnswer w rsp done fs s = .ok (s', e) → s.feeds = done ++ fs → s'.feeds.map (·.cseq) = s.feeds.map (·.cseq) := by
  induction fs with
  | nil => intro done s s' e h _; injection h with h; injection h with h _; subst h; rfl
  | cons f fs ih =>
    intro done s s' e h hf
    unfold setupAnswer at h
    split at h
    · cases ht : f.transportSetup w.inf (rsp.header.get b!"Transport") with
      | error p => rw [ht] at h; cases h
      | ok r =>
        obtain ⟨f', e1⟩ := r
        have hcs := transportSetup_cseq ht
        have hm : (done ++ f' :: fs).map (·.cseq) = s.feeds.map (·.cseq) := by rw [hf]; simp [hcs]
        rw [ht] at h
        dsimp only at h
        cases e1 with
        | some e1 => injection h with h; injection h with h _; subst h; exact hm
        | none =>
          dsimp only at h
          split at h
          · have := ih h (by simp)
            rw [this]; exact hm
          · have a1 := addSink_feeds w { s with feedidx := s.feedidx + 1, feeds := done ++ f' :: fs } (UInt8.ofNat (s.feedidx + 1) * 2) f'.transp.port.one
            split at h
            · next s1 e1 h1 => rw [h1] at a1; injection h with h; injection h with h _; subst h; rw [a1]; exact hm
            · next s1 h1 =>
              rw [h1] at a1
              have a2 := addSink_feeds w s1 (UInt8.ofNat (s.feedidx + 1) * 2 + 1) f'.transp.port.two
              split at h
              · next s2 e2 h2 => rw [h2] at a2; injection h with h; injection h with h _; subst h; rw [a2, a1]; exact hm
              · next s2 h2 =>
                rw [h2] at a2
                have hfe : s2.feeds = done ++ f' :: fs := a2.trans a1
                have := ih h (by rw [hfe]; simp)
                rw [this, hfe]; exact hm
    · exact ih h (by rw [hf]; simp)

theorem checkReady_nums {s : Sess} (h : FeedNums s) : FeedNums (checkReady s) := by
  unfold checkReady; split <;> exact h

theorem feedsFrom_unsent (proto : Proto) (ms : List Media) : ∀ k, ∀ x ∈ (feedsFrom proto k ms).map (·.cseq), x = 0 := by
  induction ms with
  | nil => intro k x hx; cases hx
  | cons m ms ih =>
    intro k x hx
    rcases List.mem_cons.1 hx with rfl | hx
    · rfl
    · exact ih _ x hx

theorem pairwise_unsent {l : List Int} (h : ∀ x ∈ l, x = 0) : l.Pairwise fun a b => a = b → a = 0 := by
  induction l with
  | nil => exact .nil
  | cons a l ih => exact .cons (fun b _ _ => h a (by simp)) (ih fun x hx => h x (by simp [hx]))

theorem parseFeeds_nums {proto : Proto} {body : Bytes} {fs : List Feed} (h : parseFeeds proto body = .ok fs) (s : Sess) : FeedNums { s with feeds := fs } := by
  unfold parseFeeds at h
  rw [go_bind_ok] at h
  obtain ⟨ms, _, h⟩ := h
  injection h with h
  subst h
  have h0 := feedsFrom_unsent proto ms 0
  exact ⟨fun x hx => by rw [h0 x hx]; exact Int.natCast_nonneg _, pairwise_unsent h0⟩

theorem answer_nums {w : World} {s s' : Sess} {verb : Bytes} {rsp : Response} {e : Option SErr} (h : answer w s verb rsp = .ok (s', e)) (hn : FeedNums s) : FeedNums s' := by
  unfold answer at h
  split at h
  · split at h
    · exact command_nums (deref_ok h) hn
    · injection h with h; injection h with h _; subst h; exact hn
  · split at h
    · split at h
      · cases hp : parseFeeds s.proto _ with
        | error p => rw [hp] at h; cases h
        | ok fs =>
          rw [hp] at h
          exact setupLoop_nums fs h rfl (parseFeeds_nums hp s)
      · injection h with h; injection h with h _; subst h; exact hn
    · split at h
      · injection h with h; injection h with h _; subst h; split <;> exact hn
      · split at h
        · injection h with h; injection h with h _; subst h; split <;> exact hn
        · split at h
          · injection h with h; injection h with h _; subst h; split <;> exact hn
          · split at h
            · unfold handleSetup at h
              split at h
              · cases ha : setupAnswer w rsp [] s.feeds s with
                | error p => rw [ha] at h; cases h
                | ok r =>
                  obtain ⟨t, e1⟩ := r
                  have ht : FeedNums t := hn.mono (setupAnswer_nums _ ha rfl) (Nat.le_of_eq (setupAnswer_core _ ha).1.symm)
                  rw [ha] at h
                  cases e1 with
                  | some e1 => injection h with h; injection h with h _; subst h; exact ht
                  | none => injection h with h; injection h with h _; subst h; exact checkReady_nums ht
              · split at h <;> (injection h with h; injection h with h _; subst h; exact checkReady_nums hn)
            · injection h with h; injection h with h _; subst h; exact hn

theorem step_nums {w : World} {s s' : Sess} {op : Op} {e : Option SErr} (h : step w s op = .ok (s', e)) (hn : FeedNums s) : FeedNums s' := by
  cases op with
  | dial uri proto user => injection h with h; injection h with h _; subst h; exact hn
  | open_ uri proto user => exact command_nums (s := { s with opened := true, baseURI := uri, proto := proto, user := user, sinks := [] }) h hn
  | options => exact command_nums (deref_ok h) hn
  | describe => exact command_nums (deref_ok h) hn
  | setup => exact setupLoop_nums s.feeds h rfl hn
  | play => exact command_nums (deref_ok h) hn
  | pause => exact command_nums (deref_ok h) hn
  | teardown => exact command_nums (deref_ok h) hn
  | keepAlive due =>
    have h := deref_ok h
    split at h
    · exact command_nums h hn
    · injection h with h; injection h with h _; subst h; exact hn
  | item i =>
    cases i with
    | frame ch p => injection h with h; injection h with h _; subst h; exact hn
    | response rsp =>
      change handleRtsp w { s with out := .got rsp :: s.out } rsp = .ok (s', e) at h
      unfold handleRtsp at h
      split at h
      · injection h with h; injection h with h _; subst h; exact hn
      · split at h
        · rcases retry_out h with ⟨x, rfl, _⟩ | ⟨a, x, res, rfl, _⟩ <;> exact hn
        · rw [learnSession_eq] at h
          exact answer_nums h hn

theorem feedNums_reachable {w : World} {s : Sess} (h : Reachable w s) : FeedNums s := by
  obtain ⟨ops, h⟩ := h
  suffices key : ∀ (ops : List Op) (s s' : Sess), FeedNums s → run w s ops = .ok s' → FeedNums s' from
    key ops newSession _ ⟨fun x hx => by (cases hx), .nil⟩ h
  intro ops
  induction ops with
  | nil => intro s s' hk h; injection h with h; subst h; exact hk
  | cons op ops ih =>
    intro s s' hk h
    unfold run at h
    cases hs : step w s op with
    | error p => rw [hs] at h; cases h
    | ok r => obtain ⟨t, e⟩ := r; rw [hs] at h; exact ih t s' (step_nums hs hk) h

/-! ## Panics -/

theorem sprop_panics {inf inf' : Nat} {st st' : ParameterSets} {b : Bytes} (h : Panics (parseSprop inf st b)) : Panics (parseSprop inf' st' b) := by
  cases b with
  | nil => obtain ⟨p, h⟩ := h; cases h
  | cons x b =>
    by_cases h8 : x.toNat % 32 = 8
    · rw [(C34_dispatch inf st x b).2.2.1 h8, C33_panics_iff] at h
      rw [(C34_dispatch inf' st' x b).2.2.1 h8, C33_panics_iff]
      exact h
    · exact absurd h ((C75_other_sets x b h8).2 inf st)

theorem sprop_panics_iff (inf : Nat) (st : ParameterSets) (b : Bytes) : Panics (parseSprop inf st b) ↔ ¬ SafeSet b :=
  ⟨fun h hs => hs inf st h, fun h => by
    apply Classical.byContradiction
    intro hn
    exact h fun inf' st' hp => hn (sprop_panics hp)⟩

theorem spropLoop_panics_iff (inf : Nat) (bs : List Bytes) : ∀ st, Panics (spropLoop inf st bs) ↔
    ∃ ok bad rest st', bs = ok ++ bad :: rest ∧ spropLoop inf st ok = .ok (st', none) ∧ ¬ SafeSet bad := by
  induction bs with
  | nil =>
    intro st
    constructor
    · rintro ⟨p, h⟩; cases h
    · rintro ⟨ok, bad, rest, _, h, _⟩; cases ok <;> cases h
  | cons b bs ih =>
    intro st
    constructor
    · rintro ⟨p, h⟩
      unfold spropLoop at h
      cases hb : parseSprop inf st b with
      | error q => exact ⟨[], b, bs, st, rfl, rfl, (sprop_panics_iff inf st b).1 ⟨q, hb⟩⟩
      | ok r =>
        obtain ⟨e, st1⟩ := r
        rw [hb, go_ok_bind] at h
        cases e with
        | some e => cases h
        | none =>
          obtain ⟨ok, bad, rest, st', rfl, h2, h3⟩ := (ih st1).1 ⟨p, h⟩
          refine ⟨b :: ok, bad, rest, st', rfl, ?_, h3⟩
          unfold spropLoop
          rw [hb, go_ok_bind]
          exact h2
    · rintro ⟨ok, bad, rest, st', h1, h2, h3⟩
      cases ok with
      | nil =>
        injection h1 with h1 h4
        subst h1
        obtain ⟨q, hq⟩ := (sprop_panics_iff inf st b).2 h3
        exact ⟨q, by unfold spropLoop; rw [hq]; rfl⟩
      | cons x ok =>
        injection h1 with h1 h4
        subst h1
        unfold spropLoop at h2 ⊢
        cases hb : parseSprop inf st b with
        | error q => exact ⟨q, rfl⟩
        | ok r =>
          obtain ⟨e, st1⟩ := r
          rw [hb, go_ok_bind] at h2
          rw [go_ok_bind]
          cases e with
          | some e => cases h2
          | none => exact (ih st1).2 ⟨ok, bad, rest, st', h4, h2, h3⟩

theorem transportSetup_panics_iff (inf : Nat) (f : Feed) (v : Bytes) : Panics (f.transportSetup inf v) ↔
    (f.transp.parse v).2 = none ∧ Panics (spropLoop inf f.sets f.media.spropParameterSets) := by
  unfold Feed.transportSetup
  cases hp : f.transp.parse v with
  | mk t e =>
    cases e with
    | some e =>
      constructor
      · rintro ⟨p, h⟩; cases h
      · rintro ⟨h, _⟩; cases h
    | none =>
      cases hs : spropLoop inf f.sets f.media.spropParameterSets with
      | error q => exact ⟨fun _ => ⟨rfl, q, rfl⟩, fun _ => ⟨q, rfl⟩⟩
      | ok r =>
        obtain ⟨st, e⟩ := r
        constructor
        · rintro ⟨p, h⟩
          dsimp only at h
          rw [go_ok_bind] at h
          cases e <;> cases h
        · rintro ⟨_, p, h⟩; cases h

theorem setupAnswer_nomatch {w : World} {rsp : Response} (fs : List Feed) : ∀ {done : List Feed} {s : Sess}, (∀ f ∈ fs, f.cseq ≠ rsp.cseq) →
    setupAnswer w rsp done fs s = .ok (s, none) := by
  induction fs with
  | nil => intro done s _; rfl
  | cons f fs ih =>
    intro done s h
    unfold setupAnswer
    rw [if_neg (h f (by simp))]
    exact ih fun g hg => h g (by simp [hg])

theorem setupAnswer_panics_iff {w : World} {rsp : Response} (h0 : rsp.cseq ≠ 0) (fs : List Feed) : ∀ {done : List Feed} {s : Sess},
    (fs.map (·.cseq)).Pairwise (fun a b => a = b → a = 0) → (Panics (setupAnswer w rsp done fs s) ↔
      ∃ f ∈ fs, f.cseq = rsp.cseq ∧ Panics (f.transportSetup w.inf (rsp.header.get b!"Transport"))) := by
  induction fs with
  | nil =>
    intro done s _
    constructor
    · rintro ⟨p, h⟩; cases h
    · rintro ⟨f, hf, _⟩; cases hf
  | cons f fs ih =>
    intro done s hp
    rw [List.map_cons, List.pairwise_cons] at hp
    unfold setupAnswer
    by_cases hc : f.cseq = rsp.cseq
    · rw [if_pos hc]
      have hrest : ∀ g ∈ fs, g.cseq ≠ rsp.cseq := fun g hg e =>
        h0 (hc ▸ hp.1 g.cseq (List.mem_map_of_mem hg) (hc.trans e.symm))
      cases ht : f.transportSetup w.inf (rsp.header.get b!"Transport") with
      | error p => exact ⟨fun _ => ⟨f, by simp, hc, p, ht⟩, fun _ => ⟨p, rfl⟩⟩
      | ok r =>
        obtain ⟨f', e⟩ := r
        have hno : ¬ ∃ g ∈ f :: fs, g.cseq = rsp.cseq ∧ Panics (g.transportSetup w.inf (rsp.header.get b!"Transport")) := by
          rintro ⟨g, hg, hgc, p, hgp⟩
          rcases List.mem_cons.1 hg with rfl | hg
          · rw [ht] at hgp; cases hgp
          · exact hrest g hg hgc
        refine ⟨fun h => ?_, fun h => absurd h hno⟩
        exfalso
        obtain ⟨p, h⟩ := h
        dsimp only at h
        cases e with
        | some e => cases h
        | none =>
          dsimp only at h
          split at h
          · rw [setupAnswer_nomatch fs hrest] at h; cases h
          · split at h
            · cases h
            · split at h
              · cases h
              · rw [setupAnswer_nomatch fs hrest] at h; cases h
    · rw [if_neg hc, ih hp.2]
      constructor
      · rintro ⟨g, hg, h⟩; exact ⟨g, by simp [hg], h⟩
      · rintro ⟨g, hg, hgc, h⟩
        rcases List.mem_cons.1 hg with rfl | hg
        · exact absurd hgc hc
        · exact ⟨g, hg, hgc, h⟩

/-- What makes the session panic: the answer to a DESCRIBE, of any status but 401, with a line that is just `m=video`; or a SETUP that is granted, with a
Transport header that can be read, when the parameter sets the description gave for this stream include one that is fatal (`C33_panics_iff`) after some
that were stored. -/
def FatalAnswer (w : World) (s : Sess) (rsp : Response) : Prop :=
  ∃ req, pending rsp.cseq s.out = some req ∧
    ((req.verb = b!"DESCRIBE" ∧ rsp.statusCode ≠ 401 ∧ ∃ body, rsp.body = some body ∧ ∃ line ∈ split 10 body, trimSpace line = b!"m=video") ∨
     (req.verb = b!"SETUP" ∧ rsp.statusCode = 200 ∧ ∃ f ∈ s.feeds, f.cseq = rsp.cseq ∧ (f.transp.parse (rsp.header.get b!"Transport")).2 = none ∧
       ∃ ok bad rest st, f.media.spropParameterSets = ok ++ bad :: rest ∧ spropLoop w.inf f.sets ok = .ok (st, none) ∧ ¬ SafeSet bad))

theorem parseFeeds_panics_iff (proto : Proto) (body : Bytes) : Panics (parseFeeds proto body) ↔ ∃ line ∈ split 10 body, trimSpace line = b!"m=video" := by
  rw [← C37_panics_iff]
  unfold parseFeeds
  cases sdpParse body with
  | error p => exact ⟨fun _ => ⟨p, rfl⟩, fun _ => ⟨p, rfl⟩⟩
  | ok ms =>
    constructor <;> (rintro ⟨p, h⟩; cases h)

theorem setupLoop_runs (w : World) (fs : List Feed) : ∀ {done : List Feed} {s : Sess}, s.proto ≠ .http → ∃ r, setupLoop w done fs s = .ok r := by
  induction fs with
  | nil => intro done s _; exact ⟨_, rfl⟩
  | cons f fs ih =>
    intro done s hp
    unfold setupLoop
    obtain ⟨t, e, h1⟩ := command_runs w hp verbSetup (setupURI s.baseURI f.media.control) [(b!"Transport", f.transportHeader)]
    rw [h1]
    cases e with
    | some e => exact ⟨_, rfl⟩
    | none =>
      dsimp only
      refine ih ?_
      rcases command_out h1 with ⟨_, rfl, _⟩ | ⟨_, _, a, x, res, rfl, _⟩ <;> exact hp

theorem retry_runs (w : World) {s : Sess} (h : s.proto ≠ .http) (req : Request) (c : Bytes) : ∃ r, retry w s req c = .ok r := by
  obtain ⟨t, e, ht⟩ : ∃ t e, authorize w s c = .ok (t, e) := by
    unfold authorize
    cases newDigest s.baseURI c with
    | error e => exact ⟨_, _, rfl⟩
    | ok d =>
      cases s.user with
      | none => exact ⟨_, _, rfl⟩
      | some up =>
        obtain ⟨u, p⟩ := up
        obtain ⟨⟨f, d'⟩, hr⟩ := authenticate_ok w.md5 (w.rnd s.out) d u p
        dsimp only
        rw [hr]
        exact ⟨_, _, rfl⟩
  unfold retry
  obtain ⟨x, rfl⟩ := authorize_core ht
  rw [ht]
  cases e with
  | some e => exact ⟨_, rfl⟩
  | none =>
    dsimp only
    obtain ⟨a, y, ha⟩ := callAuth_total w { s with auth := x } req.verb
    rw [ha]
    dsimp only [enqueue]
    suffices key : ∀ (t : Sess) (q : Request), t.proto ≠ .http → ∃ r, writeReq w t true q = .ok r from key _ _ h
    intro t q ht
    obtain ⟨s', e, hr⟩ := writeReq_total w t ht true q
    exact ⟨_, hr⟩

theorem answer_panics_iff (w : World) {s : Sess} (ho : s.opened = true) (hp : s.proto ≠ .http) (hn : FeedNums s) (verb : Bytes) (rsp : Response) (h0 : rsp.cseq ≠ 0) :
    Panics (answer w s verb rsp) ↔
    ((verb = b!"DESCRIBE" ∧ ∃ body, rsp.body = some body ∧ ∃ line ∈ split 10 body, trimSpace line = b!"m=video") ∨
     (verb = b!"SETUP" ∧ rsp.statusCode = 200 ∧ ∃ f ∈ s.feeds, f.cseq = rsp.cseq ∧ (f.transp.parse (rsp.header.get b!"Transport")).2 = none ∧
       ∃ ok bad rest st, f.media.spropParameterSets = ok ++ bad :: rest ∧ spropLoop w.inf f.sets ok = .ok (st, none) ∧ ¬ SafeSet bad)) := by
  have okNot : ∀ {x : Go (Sess × Option SErr)}, (∃ r, x = .ok r) → ¬ Panics x := by
    rintro x ⟨r, rfl⟩ ⟨p, h⟩; cases h
  have other : ∀ {P Q : Prop}, verb ≠ b!"DESCRIBE" → verb ≠ b!"SETUP" → ¬ (verb = b!"DESCRIBE" ∧ P ∨ verb = b!"SETUP" ∧ Q) := by
    rintro P Q h1 h2 (⟨h, _⟩ | ⟨h, _⟩)
    · exact h1 h
    · exact h2 h
  unfold answer
  by_cases v1 : verb = verbOptions
  · rw [if_pos v1]
    subst v1
    refine ⟨fun h => absurd h (okNot ?_), fun h => absurd h (other (by decide) (by decide))⟩
    split
    · obtain ⟨s', e, h1⟩ := command_runs w (s := { s with verbs := s.verbs ++ split2 44 32 (rsp.header.get b!"Public") }) hp verbDescribe s.baseURI [(b!"Accept", b!"application/sdp")]
      exact ⟨_, (deref_open (s := { s with verbs := s.verbs ++ split2 44 32 (rsp.header.get b!"Public") }) ho).trans h1⟩
    · exact ⟨_, rfl⟩
  rw [if_neg v1]
  by_cases v2 : verb = verbDescribe
  · rw [if_pos v2]
    subst v2
    cases hb : rsp.body with
    | none =>
      refine ⟨fun ⟨p, h⟩ => by (cases h), ?_⟩
      rintro (⟨_, b, h, _⟩ | ⟨h, _⟩)
      · cases h
      · exact absurd h (by decide)
    | some body =>
      dsimp only
      have hpf := parseFeeds_panics_iff s.proto body
      cases hf : parseFeeds s.proto body with
      | error p =>
        exact ⟨fun _ => .inl ⟨rfl, body, rfl, hpf.1 ⟨p, hf⟩⟩, fun _ => ⟨p, rfl⟩⟩
      | ok fs =>
        obtain ⟨r, hr⟩ := setupLoop_runs w fs (done := []) (s := { s with feeds := fs }) hp
        refine ⟨fun h => absurd h (okNot ⟨r, hr⟩), ?_⟩
        rintro (⟨_, b, h, h'⟩ | ⟨h, _⟩)
        · injection h with h
          subst h
          obtain ⟨p, h'⟩ := hpf.2 h'
          rw [hf] at h'; cases h'
        · exact absurd h (by decide)
  rw [if_neg v2]
  by_cases v3 : verb = verbPause
  · rw [if_pos v3]; subst v3
    exact ⟨fun h => absurd h (okNot ⟨_, rfl⟩), fun h => absurd h (other (by decide) (by decide))⟩
  rw [if_neg v3]
  by_cases v4 : verb = verbPlay
  · rw [if_pos v4]; subst v4
    exact ⟨fun h => absurd h (okNot ⟨_, rfl⟩), fun h => absurd h (other (by decide) (by decide))⟩
  rw [if_neg v4]
  by_cases v5 : verb = verbTeardown
  · rw [if_pos v5]; subst v5
    exact ⟨fun h => absurd h (okNot ⟨_, rfl⟩), fun h => absurd h (other (by decide) (by decide))⟩
  rw [if_neg v5]
  by_cases v6 : verb = verbSetup
  · rw [if_pos v6]
    subst v6
    have hsa := setupAnswer_panics_iff (w := w) (rsp := rsp) h0 s.feeds (done := []) (s := s) hn.2
    unfold handleSetup
    by_cases hc : rsp.statusCode = 200
    · rw [if_pos hc]
      have e : Panics (match setupAnswer w rsp [] s.feeds s with
          | .error p => .error p
          | .ok (s, some e) => pure (s, some e)
          | .ok (s, none) => pure (checkReady s, none) : Go (Sess × Option SErr)) ↔ Panics (setupAnswer w rsp [] s.feeds s) := by
        cases setupAnswer w rsp [] s.feeds s with
        | error p => exact ⟨fun _ => ⟨p, rfl⟩, fun _ => ⟨p, rfl⟩⟩
        | ok r =>
          obtain ⟨t, e⟩ := r
          cases e <;> (constructor <;> (rintro ⟨p, h⟩; cases h))
      refine e.trans (hsa.trans ?_)
      constructor
      · rintro ⟨f, hf, hfc, h⟩
        obtain ⟨h1, h2⟩ := (transportSetup_panics_iff _ f _).1 h
        exact .inr ⟨rfl, hc, f, hf, hfc, h1, (spropLoop_panics_iff _ _ _).1 h2⟩
      · rintro (⟨h, _⟩ | ⟨_, _, f, hf, hfc, h1, h2⟩)
        · exact absurd h (by decide)
        · exact ⟨f, hf, hfc, (transportSetup_panics_iff _ f _).2 ⟨h1, (spropLoop_panics_iff _ _ _).2 h2⟩⟩
    · rw [if_neg hc]
      refine ⟨fun h => absurd h (okNot ?_), ?_⟩
      · split <;> exact ⟨_, rfl⟩
      · rintro (⟨h, _⟩ | ⟨_, h, _⟩)
        · exact absurd h (by decide)
        · exact absurd h hc
  · rw [if_neg v6]
    exact ⟨fun h => absurd h (okNot ⟨_, rfl⟩), fun h => absurd h (other v2 v6)⟩

/-- The session has been opened, or nothing has happened to it. -/
def Began (s : Sess) : Prop := s.opened = false → s.queue = [] ∧ s.feeds = []

theorem step_began {w : World} {s s' : Sess} {op : Op} {e : Option SErr} (h : step w s op = .ok (s', e)) (hb : Began s) : Began s' := by
  by_cases ho : s.opened = true
  · intro hn
    exfalso
    by_cases hop : Opens op
    · rcases opens_cases hop with ⟨a, b, c, rfl⟩ | ⟨a, b, c, rfl⟩
      · injection h with h; injection h with h _; subst h; cases hn
      have := (command_static (show command w { s with opened := true, baseURI := a, proto := b, user := c, sinks := [] } verbOptions a [] = .ok (s', e) from h)).1
      rw [hn] at this; cases this
    · have := (step_static hop h).1
      rw [hn, ho] at this; cases this
  · have ho : s.opened = false := by simpa using ho
    obtain ⟨hq, hf⟩ := hb ho
    have no : ∀ {k : Go (Sess × Option SErr)}, s.deref k ≠ .ok (s', e) := fun hk => by rw [deref_opened hk] at ho; cases ho
    cases op with
    | dial a b c => intro hn; injection h with h; injection h with h _; subst h; cases hn
    | open_ a b c =>
      intro hn
      have := (command_static (show command w { s with opened := true, baseURI := a, proto := b, user := c, sinks := [] } verbOptions a [] = .ok (s', e) from h)).1
      rw [hn] at this; cases this
    | options => exact absurd h no
    | describe => exact absurd h no
    | setup =>
      have h : setupLoop w [] s.feeds s = .ok (s', e) := h
      rw [hf] at h
      injection h with h; injection h with h _; subst h
      exact hb
    | play => exact absurd h no
    | pause => exact absurd h no
    | teardown => exact absurd h no
    | keepAlive due => exact absurd h no
    | item i =>
      cases i with
      | frame ch p => injection h with h; injection h with h _; subst h; exact hb
      | response rsp =>
        have h : handleRtsp w { s with out := .got rsp :: s.out } rsp = .ok (s', e) := h
        unfold handleRtsp Sess.find at h
        dsimp only at h
        rw [hq] at h
        injection h with h; injection h with h _; subst h
        exact fun _ => ⟨rfl, hf⟩

theorem run_began {w : World} (ops : List Op) : ∀ {s s' : Sess}, run w s ops = .ok s' → Began s → Began s' := by
  induction ops with
  | nil => intro s s' h hb; injection h with h; subst h; exact hb
  | cons op ops ih =>
    intro s s' h hb
    unfold run at h
    cases hs : step w s op with
    | error p => rw [hs] at h; cases h
    | ok r =>
      obtain ⟨t, e⟩ := r
      rw [hs] at h
      exact ih h (step_began hs hb)

theorem reachable_began {w : World} {s : Sess} (h : Reachable w s) : Began s := by
  obtain ⟨ops, h⟩ := h
  exact run_began ops h fun _ => ⟨rfl, rfl⟩

/-- **C75**, exact, the session: in every history (not over HTTP), a call panics exactly if the session has never been opened (C112), a packet never does, and a response
does exactly if it is fatal. -/
theorem C75_session_iff (w : World) (s : Sess) (h : Reachable w s) (hp : s.proto ≠ .http) (op : Op) (hop : ∀ uri proto user, op = .open_ uri proto user → proto ≠ .http) :
    Panics (step w s op) ↔ (s.opened = false ∧ UsesConn op) ∨ ∃ rsp, op = .item (.response rsp) ∧ FatalAnswer w s rsp := by
  by_cases ho : s.opened = false
  · obtain ⟨hq, hf⟩ := reachable_began h ho
    have hfatal : ¬ ∃ rsp, op = .item (.response rsp) ∧ FatalAnswer w s rsp := by
      rintro ⟨rsp, _, req, hr, _⟩
      rw [← (inv_reachable h).find rsp.cseq] at hr
      unfold Sess.find at hr
      rw [hq] at hr
      cases hr
    have no : ∀ {k : Go (Sess × Option SErr)}, Panics (s.deref k) := fun {k} => ⟨.nilDeref, by unfold Sess.deref; rw [if_pos ho]⟩
    have fine : ∀ {x : Go (Sess × Option SErr)}, (∃ r, x = .ok r) → ¬ Panics x := by
      rintro x ⟨r, rfl⟩ ⟨p, h⟩; cases h
    refine Iff.trans ?_ (or_iff_left hfatal).symm
    refine Iff.trans ?_ (and_iff_right ho).symm
    cases op with
    | dial uri proto user => exact iff_of_false (fine ⟨_, rfl⟩) id
    | open_ uri proto user =>
      refine iff_of_false (fine ?_) id
      obtain ⟨s', e, hr⟩ := command_runs w (s := { s with opened := true, baseURI := uri, proto := proto, user := user, sinks := [] }) (hop uri proto user rfl) verbOptions uri []
      exact ⟨_, hr⟩
    | options => exact iff_of_true no trivial
    | describe => exact iff_of_true no trivial
    | setup =>
      refine iff_of_false (fine ?_) id
      obtain ⟨r, hr⟩ := setupLoop_runs w s.feeds (done := []) hp
      exact ⟨r, hr⟩
    | play => exact iff_of_true no trivial
    | pause => exact iff_of_true no trivial
    | teardown => exact iff_of_true no trivial
    | keepAlive due => exact iff_of_true no trivial
    | item i =>
      cases i with
      | frame ch p => exact iff_of_false (fine ⟨_, rfl⟩) id
      | response rsp =>
        refine iff_of_false (fine ?_) id
        show ∃ r, handleRtsp w { s with out := .got rsp :: s.out } rsp = .ok r
        unfold handleRtsp Sess.find
        dsimp only
        rw [hq]
        exact ⟨_, rfl⟩
  have hopen : s.opened = true := by simpa using ho
  refine Iff.trans ?_ (or_iff_right (fun h => ho h.1)).symm
  have okNot : ∀ {x : Go (Sess × Option SErr)}, (∃ s' e, x = .ok (s', e)) → ¬ Panics x := by
    rintro x ⟨s', e, rfl⟩ ⟨p, h⟩; cases h
  have none : ∀ {op : Op}, (∀ rsp, op ≠ .item (.response rsp)) → (∃ s' e, step w s op = .ok (s', e)) → (Panics (step w s op) ↔ ∃ rsp, op = .item (.response rsp) ∧ FatalAnswer w s rsp) :=
    fun h1 h2 => ⟨fun h => absurd h (okNot h2), fun ⟨rsp, h, _⟩ => absurd h (h1 rsp)⟩
  have cmd : ∀ verb uri hs, ∃ s' e, s.deref (command w s verb uri hs) = .ok (s', e) := fun verb uri hs => by
    rw [deref_open hopen]; exact command_runs w hp verb uri hs
  cases op with
  | dial uri proto user => exact none (fun _ h => by (cases h)) ⟨_, _, rfl⟩
  | open_ uri proto user => exact none (fun _ h => by (cases h)) (command_runs w (s := { s with opened := true, baseURI := uri, proto := proto, user := user, sinks := [] }) (hop uri proto user rfl) _ _ _)
  | options => exact none (fun _ h => by (cases h)) (cmd _ _ _)
  | describe => exact none (fun _ h => by (cases h)) (cmd _ _ _)
  | setup =>
    refine none (fun _ h => by (cases h)) ?_
    obtain ⟨⟨s', e⟩, hr⟩ := setupLoop_runs w s.feeds (done := []) hp
    exact ⟨s', e, hr⟩
  | play => exact none (fun _ h => by (cases h)) (cmd _ _ _)
  | pause => exact none (fun _ h => by (cases h)) (cmd _ _ _)
  | teardown => exact none (fun _ h => by (cases h)) (cmd _ _ _)
  | keepAlive due =>
    refine none (fun _ h => by (cases h)) ?_
    show ∃ s' e, s.keepAlive w due = .ok (s', e)
    unfold Sess.keepAlive
    rw [deref_open hopen]
    split
    · exact command_runs w hp _ _ _
    · exact ⟨_, _, rfl⟩
  | item i =>
    cases i with
    | frame ch p => exact none (fun _ h => by (cases h)) ⟨_, _, rfl⟩
    | response rsp =>
      have hinv := inv_reachable h
      have e1 : (∃ rsp', Op.item (.response rsp) = .item (.response rsp') ∧ FatalAnswer w s rsp') ↔ FatalAnswer w s rsp := by
        constructor
        · rintro ⟨r, h1, h2⟩
          injection h1 with h1; injection h1 with h1
          subst h1; exact h2
        · exact fun h => ⟨rsp, rfl, h⟩
      rw [e1]
      unfold FatalAnswer
      show Panics (handleRtsp w { s with out := .got rsp :: s.out } rsp) ↔ _
      unfold handleRtsp
      have hfind : Sess.find { s with out := .got rsp :: s.out } rsp.cseq = pending rsp.cseq s.out := hinv.find rsp.cseq
      rw [hfind]
      cases hpend : pending rsp.cseq s.out with
      | none => exact ⟨fun ⟨p, h⟩ => by (cases h), fun ⟨q, h, _⟩ => by (cases h)⟩
      | some req =>
        dsimp only
        have h0 : rsp.cseq ≠ 0 := by have := (hinv.range _ _ hpend).1; omega
        by_cases h401 : rsp.statusCode = 401
        · rw [if_pos h401]
          obtain ⟨⟨s', e⟩, hr⟩ := retry_runs w (s := Sess.remove { s with out := .got rsp :: s.out } rsp.cseq) hp req (rsp.header.get b!"WWW-Authenticate")
          refine ⟨fun h => absurd h (okNot ⟨s', e, hr⟩), ?_⟩
          rintro ⟨q, _, ⟨_, h, _⟩ | ⟨_, h, _⟩⟩
          · exact absurd h401 h
          · omega
        · rw [if_neg h401, learnSession_eq]
          have hk := answer_panics_iff w (s := { Sess.remove { s with out := .got rsp :: s.out } rsp.cseq with session := learned s.session (rsp.header.get b!"Session") })
            hopen hp (show FeedNums s from feedNums_reachable h) req.verb rsp h0
          refine Iff.trans hk ?_
          constructor
          · rintro (⟨h1, h2⟩ | h1)
            · exact ⟨req, rfl, .inl ⟨h1, h401, h2⟩⟩
            · exact ⟨req, rfl, .inr h1⟩
          · rintro ⟨q, hq, ⟨h1, _, h2⟩ | h1⟩
            · injection hq with hq; subst hq; exact .inl ⟨h1, h2⟩
            · injection hq with hq; subst hq; exact .inr h1

/-- A history in which an answer is fatal, and so panics. -/
example : ∃ s rsp, Reachable demoWorld s ∧ s.proto ≠ .http ∧ FatalAnswer demoWorld s rsp ∧ Panics (step demoWorld s (.item (.response rsp))) := by
  obtain ⟨s, hs, hp⟩ := C75_bare_refuted
  have hr : Reachable demoWorld s := ⟨_, hs⟩
  have h2 : s.proto ≠ .http := by
    injection hs with hs
    subst hs
    decide
  obtain ⟨_, h⟩ | ⟨rsp, h, hf⟩ := (C75_session_iff demoWorld s hr h2 _ (fun _ _ _ h => by (cases h))).1 hp
  · exact h.elim
  exact ⟨s, rsp, hr, h2, hf, h ▸ hp⟩

/-- One in which the same answer with one more word on that line is not. -/
example : ∃ s, run demoWorld newSession [demoOpen, demoGot 1 200 [] none] = .ok s ∧ (step demoWorld s (demoGot 2 200 [] (some b!"v=0\r\nm=video 0\r\n"))).isOk = true :=
  ⟨_, rfl, by decide +kernel⟩

/-- **C75**, exact, the client: it panics exactly on reading a fatal answer or on taking a deadly packet. -/
theorem C75_client_iff (w : World) (c : Client) (h : ClientReachable w c) (hne : c.ended = false) (e : CEv) :
    Panics (cstep w c e) ↔
      (e = .read ∧ (c.running = true ∧ c.states = [] ∧ c.data.length ≤ 20) ∧ ∃ rsp r', recv c.rdr = (.ok (.response rsp), r') ∧ FatalAnswer w c.sess rsp) ∨
      (e = .packet ∧ ∃ ch p rest, c.data = (ch, p) :: rest ∧ Deadly ch p) := by
  obtain ⟨_, hproto⟩ := plain_static (client_inv h).reach
  have hreach : Reachable w c.sess := by
    exact PlainReachable.reachable (client_inv h).reach
  constructor
  · intro hp
    rcases C75_client_reasons w c h e hp with ⟨rfl, _⟩ | hd
    · left
      refine ⟨rfl, ?_⟩
      obtain ⟨p, hp⟩ := hp
      unfold cstep at hp
      rw [if_neg (by rw [hne]; decide)] at hp
      dsimp only at hp
      unfold clientRead at hp
      split at hp
      · next hrun =>
        refine ⟨hrun, ?_⟩
        split at hp
        · cases hp
        · cases hp
        · next item r hr =>
          cases item with
          | frame ch pl => cases hp
          | response rsp =>
            refine ⟨rsp, r, hr, ?_⟩
            cases hh : handleItem w c.sess (.response rsp) with
            | ok x => obtain ⟨s, e⟩ := x; rw [hh] at hp; cases hp
            | error q =>
              obtain ⟨_, h⟩ | ⟨rsp', e1, h2⟩ := (C75_session_iff w c.sess hreach hproto (.item (.response rsp)) (fun _ _ _ h => by (cases h))).1 ⟨q, hh⟩
              · exact h.elim
              injection e1 with e1; injection e1 with e1
              subst e1; exact h2
      · cases hp
    · exact .inr hd
  · rintro (⟨rfl, hrun, rsp, r, hr, hf⟩ | ⟨rfl, ch, p, rest, hd, hdead⟩)
    · obtain ⟨q, hq⟩ := (C75_session_iff w c.sess hreach hproto (.item (.response rsp)) (fun _ _ _ h => by (cases h))).2 (.inr ⟨rsp, rfl, hf⟩)
      refine ⟨q, ?_⟩
      unfold cstep
      rw [if_neg (by rw [hne]; decide)]
      dsimp only
      unfold clientRead
      rw [if_pos hrun, hr]
      dsimp only
      have hq : handleItem w c.sess (.response rsp) = .error q := hq
      rw [hq]
    · unfold cstep
      rw [if_neg (by rw [hne]; decide)]
      dsimp only
      unfold clientPacket
      rw [hd]
      dsimp only
      unfold Deadly at hdead
      split
      · next hch =>
        rw [if_pos hch] at hdead
        have bad : Panics (rtpUnpack p) → _ := fun h => h
        rcases hdead with hdead | hdead | ⟨q, hv, rfl, hpush⟩
        · obtain ⟨x, hx⟩ := (C24_panics_iff p).2 (.inl hdead); exact ⟨x, by rw [hx]⟩
        · obtain ⟨x, hx⟩ := (C24_panics_iff p).2 (.inr hdead); exact ⟨x, by rw [hx]⟩
        · obtain ⟨k, hk, hk'⟩ := C23_unpack q hv
          have hb : k.pl = q.body := hk'.2.2.2.2.2.2.2.2.2.2.2
          obtain ⟨x, hx⟩ := (C18_push_panics_iff c.sink (client_tinv h).don q.body k.ts).2 hpush
          refine ⟨x, ?_⟩
          rw [hk]
          dsimp only
          rw [hb, hx]
      · next hch =>
        rw [if_neg hch] at hdead
        obtain ⟨x, hx⟩ := (C27_panics_iff p).2 hdead
        exact ⟨x, by rw [hx]⟩

end Ouro
