import Verif.Lemmas.Clean
/-! # No request of a session has a text that breaks it -/
namespace Ouro
open Spec

/-- A response of a server that keeps to lines: no carriage return in a header value, and a plain description. -/
def PlainAnswer (rsp : Response) : Prop :=
  (∀ e ∈ rsp.header, (13 : UInt8) ∉ e.2) ∧ ∀ b, rsp.body = some b → PlainBody b

/-- The user's calls after `Open`, and plain answers. -/
def PlainOp : Op → Prop
  | .dial .. => False
  | .open_ .. => False
  | .item (.response rsp) => PlainAnswer rsp
  | _ => True

/-- What can get into a request. -/
structure CleanSess (s : Sess) : Prop where
  base : IsWord s.baseURI
  user : ∀ u p, s.user = some (u, p) → (13 : UInt8) ∉ u
  auth : ∀ f d, s.auth = some (f, d) → CleanAuth f d
  queue : ∀ e ∈ s.queue, CleanReq e.2
  session : (13 : UInt8) ∉ s.session
  feeds : ∀ f ∈ s.feeds, IsWord f.media.control ∧ CleanTransport f.transp
  out : ∀ r q res, .sent r q res ∈ s.out → CleanReq q

theorem get_noCR {h : Header} (hh : ∀ e ∈ h, (13 : UInt8) ∉ e.2) (k : Bytes) : (13 : UInt8) ∉ h.get k := by
  unfold Header.get Header.at
  cases hf : h.find? (fun e => e.1 = canonKey k) with
  | none => exact List.not_mem_nil
  | some e => exact hh e (List.mem_of_find?_eq_some hf)

theorem callAuth_clean {w : World} {s s' : Sess} {verb a : Bytes} (h : callAuth w s verb = .ok (a, s')) (hc : CleanSess s) :
    (13 : UInt8) ∉ a ∧ CleanSess s' := by
  unfold callAuth at h
  split at h
  · cases h; exact ⟨List.not_mem_nil, hc⟩
  · rename_i f d hs
    split at h
    · cases h
    · rename_i a' d' ha
      cases h
      obtain ⟨h1, h2⟩ := authCall_clean (hc.auth _ _ hs) ha
      exact ⟨h1, { hc with auth := fun f' d'' he => by cases he; exact h2 }⟩

theorem writeReq_clean {w : World} {s s' : Sess} {r : Bool} {q : Request} {e : Option SErr} (h : writeReq w s r q = .ok (s', e)) (hc : CleanSess s) (hq : CleanReq q) : CleanSess s' := by
  have key : ∀ res, CleanSess { s with out := .sent r q res :: s.out } := by
    intro res
    refine { hc with out := ?_ }
    intro r' q' res' hm
    rcases List.mem_cons.1 hm with he | hm
    · cases he; exact hq
    · exact hc.out _ _ _ hm
  unfold writeReq at h
  split at h
  · cases h
  · dsimp only at h
    split at h <;> (cases h; exact key _)

theorem enqueue_clean {s : Sess} {q : Request} (hc : CleanSess s) (hq : CleanReq q) : CleanReq (enqueue s q).1 ∧ CleanSess (enqueue s q).2 := by
  have h1 : CleanReq (enqueue s q).1 := ⟨hq.verb, hq.uri, hq.header, hc.session, hq.auth⟩
  refine ⟨h1, { hc with queue := ?_ }⟩
  intro e he
  simp only [enqueue] at he
  rcases List.mem_append.1 he with he | he
  · exact hc.queue e ((List.mem_filter.1 he).1)
  · rw [List.mem_singleton] at he; subst he; exact h1

theorem command_clean {w : World} {s s' : Sess} {verb uri : Bytes} {hs : Header} {e : Option SErr} (h : command w s verb uri hs = .ok (s', e)) (hc : CleanSess s)
    (hv : IsWord verb) (hu : IsWord uri) (hh : ∀ x ∈ hs.foldl (fun (h : Header) e => h.set e.1 e.2) [], (58 : UInt8) ∉ x.1 ∧ (13 : UInt8) ∉ x.1 ∧ (13 : UInt8) ∉ x.2) : CleanSess s' := by
  unfold command at h
  split at h
  · cases h; exact hc
  · split at h
    · cases h
    · rename_i a s1 ha
      obtain ⟨h1, h2⟩ := callAuth_clean ha hc
      dsimp only at h
      have h3 : CleanSess { s1 with cseq := s1.cseq + 1 } := { h2 with }
      have h4 := enqueue_clean (q := { verb, uri, auth := a, header := hs.foldl (fun h e => h.set e.1 e.2) [] }) h3 ⟨hv, hu, hh, List.not_mem_nil, h1⟩
      exact writeReq_clean h h4.2 h4.1

theorem canon_one (k v : Bytes) : [(k, v)].foldl (fun (h : Header) e => h.set e.1 e.2) [] = [(canonKey k, v)] := rfl

theorem simple_clean {w : World} {s s' : Sess} {verb : Bytes} {e : Option SErr} (h : command w s verb s.baseURI [] = .ok (s', e)) (hc : CleanSess s) (hv : IsWord verb) : CleanSess s' :=
  command_clean h hc hv hc.base (by intro x hx; cases hx)

theorem describe_clean {w : World} {s s' : Sess} {e : Option SErr} (h : Sess.describe w s = .ok (s', e)) (hc : CleanSess s) : CleanSess s' := by
  refine command_clean (deref_ok h) hc ⟨by decide, by decide⟩ hc.base ?_
  intro x hx
  rw [canon_one, List.mem_singleton] at hx
  subst hx; decide

theorem setupLoop_clean {w : World} : ∀ (fs : List Feed) {done : List Feed} {s s' : Sess} {e : Option SErr}, setupLoop w done fs s = .ok (s', e) → CleanSess s →
    (∀ f ∈ done ++ fs, IsWord f.media.control ∧ CleanTransport f.transp) → CleanSess s' := by
  intro fs
  induction fs with
  | nil => intro done s s' e h hc _; cases h; exact hc
  | cons f fs ih =>
    intro done s s' e h hc hf
    have hff := hf f (by simp)
    have huri : IsWord (setupURI s.baseURI f.media.control) := by
      unfold setupURI
      split
      · exact hff.1
      · refine ⟨fun hm => ?_, fun hm => ?_⟩ <;> simp only [List.mem_append] at hm
        · rcases hm with (hm | hm) | hm
          · exact hc.base.1 hm
          · exact absurd hm (by decide)
          · exact hff.1.1 hm
        · rcases hm with (hm | hm) | hm
          · exact hc.base.2 hm
          · exact absurd hm (by decide)
          · exact hff.1.2 hm
    unfold setupLoop at h
    split at h
    · cases h
    · rename_i s1 e1 h1
      cases h
      refine command_clean h1 hc ⟨by decide, by decide⟩ huri ?_
      intro x hx
      rw [canon_one, List.mem_singleton] at hx
      subst hx
      exact ⟨show (58 : UInt8) ∉ canonKey b!"Transport" by decide, show (13 : UInt8) ∉ canonKey b!"Transport" by decide, string_clean hff.2⟩
    · rename_i s1 h1
      have hc1 : CleanSess s1 := by
        refine command_clean h1 hc ⟨by decide, by decide⟩ huri ?_
        intro x hx
        rw [canon_one, List.mem_singleton] at hx
        subst hx
        exact ⟨show (58 : UInt8) ∉ canonKey b!"Transport" by decide, show (13 : UInt8) ∉ canonKey b!"Transport" by decide, string_clean hff.2⟩
      have hall : ∀ g ∈ done ++ { f with cseq := (s1.cseq : Int) } :: fs, IsWord g.media.control ∧ CleanTransport g.transp := by
        intro g hg
        rcases List.mem_append.1 hg with hg | hg
        · exact hf g (by simp [hg])
        · rcases List.mem_cons.1 hg with rfl | hg
          · exact hff
          · exact hf g (by simp [hg])
      exact ih h { hc1 with feeds := hall } (by intro g hg; exact hall g (by simpa using hg))

theorem setupAnswer_clean {w : World} {rsp : Response} (hv : (13 : UInt8) ∉ rsp.header.get b!"Transport") : ∀ (fs : List Feed) {done : List Feed} {s s' : Sess} {e : Option SErr},
    setupAnswer w rsp done fs s = .ok (s', e) → CleanSess s → (∀ f ∈ done ++ fs, IsWord f.media.control ∧ CleanTransport f.transp) → CleanSess s' := by
  intro fs
  induction fs with
  | nil => intro done s s' e h hc _; cases h; exact hc
  | cons f fs ih =>
    intro done s s' e h hc hf
    have hff := hf f (by simp)
    unfold setupAnswer at h
    split at h
    · split at h
      · cases h
      · rename_i f' e' hts
        have hf' : IsWord f'.media.control ∧ CleanTransport f'.transp := by
          unfold Feed.transportSetup at hts
          have hp := parse_clean hff.2 hv
          split at hts
          · rename_i t e1 ht
            rw [ht] at hp
            cases hts
            exact ⟨hff.1, hp⟩
          · rename_i t ht
            rw [ht] at hp
            cases hl : spropLoop w.inf f.sets f.media.spropParameterSets with
            | error p => rw [hl] at hts; cases hts
            | ok r =>
              rw [hl] at hts
              obtain ⟨ps, o⟩ := r
              cases o with
              | none => cases hts; exact ⟨hff.1, hp⟩
              | some o => cases hts; exact ⟨hff.1, hp⟩
        have hall : ∀ g ∈ done ++ f' :: fs, IsWord g.media.control ∧ CleanTransport g.transp := by
          intro g hg
          rcases List.mem_append.1 hg with hg | hg
          · exact hf g (by simp [hg])
          · rcases List.mem_cons.1 hg with rfl | hg
            · exact hf'
            · exact hf g (by simp [hg])
        have hc1 : CleanSess { s with feedidx := s.feedidx + 1, feeds := done ++ f' :: fs } := { hc with feeds := hall }
        have hsink : ∀ {t t' : Sess} {c : UInt8} {p : Int} {o : Option SErr}, addSink w t c p = (t', o) → CleanSess t → CleanSess t' := by
          intro t t' c p o ha ht
          unfold addSink at ha
          split at ha
          · cases ha; exact { ht with }
          · cases ha; exact ht
          · cases ha; exact ht
        dsimp only at h
        split at h
        · cases h; exact hc1
        · split at h
          · exact ih h hc1 (by intro g hg; exact hall g (by simpa using hg))
          · split at h
            · rename_i s2 e2 hs2
              cases h; exact hsink hs2 hc1
            · rename_i s2 hs2
              split at h
              · rename_i s3 e3 hs3
                cases h; exact hsink hs3 (hsink hs2 hc1)
              · rename_i s3 hs3
                exact ih h (hsink hs3 (hsink hs2 hc1)) (by intro g hg; exact hall g (by simpa using hg))
    · exact ih h hc (by intro g hg; exact hf g (by simpa using hg))

theorem checkReady_clean {s : Sess} (hc : CleanSess s) : CleanSess (checkReady s) := by
  unfold checkReady notify
  split
  · refine { hc with out := ?_ }
    intro r q res hm
    simp only [List.mem_cons] at hm
    rcases hm with hm | hm | hm
    · cases hm
    · cases hm
    · exact hc.out _ _ _ hm
  · exact hc

theorem notify_clean {s : Sess} (n : Nat) (hc : CleanSess s) : CleanSess (notify s n) := by
  refine { hc with out := ?_ }
  intro r q res hm
  rcases List.mem_cons.1 hm with hm | hm
  · cases hm
  · exact hc.out _ _ _ hm

theorem handleSetup_clean {w : World} {s s' : Sess} {rsp : Response} {e : Option SErr} (h : handleSetup w s rsp = .ok (s', e)) (hc : CleanSess s)
    (hv : (13 : UInt8) ∉ rsp.header.get b!"Transport") : CleanSess s' := by
  unfold handleSetup at h
  split at h
  · split at h
    · cases h
    · rename_i s1 e1 h1
      cases h; exact setupAnswer_clean hv _ h1 hc (by simpa using hc.feeds)
    · rename_i s1 h1
      cases h; exact checkReady_clean (setupAnswer_clean hv _ h1 hc (by simpa using hc.feeds))
  · split at h
    · cases h; exact checkReady_clean { hc with }
    · cases h; exact checkReady_clean hc

theorem remove_clean {s : Sess} (n : Int) (hc : CleanSess s) : CleanSess (s.remove n) :=
  { hc with queue := fun e he => hc.queue e ((List.mem_filter.1 he).1) }

theorem retry_clean {w : World} {s s' : Sess} {q : Request} {ch : Bytes} {e : Option SErr} (h : retry w s q ch = .ok (s', e)) (hc : CleanSess s) (hq : CleanReq q)
    (hch : (13 : UInt8) ∉ ch) : CleanSess s' := by
  unfold retry at h
  split at h
  · cases h
  · rename_i s1 e1 h1
    cases h
    unfold authorize at h1
    repeat' split at h1
    all_goals cases h1
    all_goals exact hc
  · rename_i s1 h1
    have hc1 : CleanSess s1 := by
      unfold authorize at h1
      split at h1
      · cases h1
      · rename_i d hd
        split at h1
        · cases h1
        · rename_i u p hu
          split at h1
          · cases h1
          · rename_i f d' ha
            cases h1
            exact { hc with auth := fun f' d'' he => by cases he; exact authenticate_clean hd hc.base.2 hch (hc.user _ _ hu) ha }
    split at h
    · cases h
    · rename_i a s2 ha
      obtain ⟨g1, g2⟩ := callAuth_clean ha hc1
      have g3 := enqueue_clean (q := { q with auth := a }) g2 { hq with auth := g1 }
      exact writeReq_clean h g3.2 g3.1

theorem learnSession_clean {s : Sess} {v : Bytes} (hc : CleanSess s) (hv : (13 : UInt8) ∉ v) : CleanSess (learnSession s v) := by
  unfold learnSession
  split
  · split
    · rename_i f t hs
      exact { hc with session := fun hm => hv (split_sub v f (by rw [hs]; simp) _ hm) }
    · exact hc
  · exact hc

theorem feedsFrom_clean (proto : Proto) : ∀ (ms : List Media) (k : Nat), (∀ m ∈ ms, IsWord m.control) → ∀ f ∈ feedsFrom proto k ms, IsWord f.media.control ∧ CleanTransport f.transp := by
  intro ms
  induction ms with
  | nil => intro k _ f hf; cases hf
  | cons m ms ih =>
    intro k hm f hf
    rw [feedsFrom] at hf
    rcases List.mem_cons.1 hf with rfl | hf
    · exact ⟨hm m (by simp), newTransport_clean _ _⟩
    · exact ih (k + 1) (fun x hx => hm x (List.mem_cons_of_mem _ hx)) f hf

theorem answer_clean {w : World} {s s' : Sess} {verb : Bytes} {rsp : Response} {e : Option SErr} (h : answer w s verb rsp = .ok (s', e)) (hc : CleanSess s)
    (hr : PlainAnswer rsp) : CleanSess s' := by
  unfold answer at h
  split at h
  · split at h
    · exact describe_clean h { hc with }
    · cases h; exact hc
  · split at h
    · split at h
      · rename_i body hb
        split at h
        · cases h
        · rename_i feeds hf
          have hall : ∀ f ∈ feeds, IsWord f.media.control ∧ CleanTransport f.transp := by
            unfold parseFeeds at hf
            cases hp : sdpParse body with
            | error p => rw [hp] at hf; cases hf
            | ok ms =>
              rw [hp] at hf
              cases hf
              exact feedsFrom_clean _ ms 0 (sdpParse_control hp (hr.2 _ hb))
          exact setupLoop_clean feeds h { hc with feeds := hall } (by simpa using hall)
      · cases h; exact hc
    · split at h
      · cases h; split
        · exact notify_clean _ hc
        · exact hc
      · split at h
        · cases h; split
          · exact notify_clean _ hc
          · exact hc
        · split at h
          · cases h; split
            · exact notify_clean _ hc
            · exact hc
          · split at h
            · exact handleSetup_clean h hc (get_noCR hr.1 _)
            · cases h; exact hc

theorem step_clean {w : World} {s s' : Sess} {op : Op} {e : Option SErr} (h : step w s op = .ok (s', e)) (hc : CleanSess s) (hop : PlainOp op) : CleanSess s' := by
  cases op with
  | dial => exact hop.elim
  | open_ => exact hop.elim
  | options => exact simple_clean (deref_ok h) hc ⟨by decide, by decide⟩
  | describe => exact describe_clean h hc
  | setup => exact setupLoop_clean s.feeds h hc (by simpa using hc.feeds)
  | play => exact simple_clean (deref_ok h) hc ⟨by decide, by decide⟩
  | pause => exact simple_clean (deref_ok h) hc ⟨by decide, by decide⟩
  | teardown => exact simple_clean (deref_ok h) hc ⟨by decide, by decide⟩
  | keepAlive due =>
    have h := deref_ok h
    split at h
    · refine command_clean h hc ⟨by decide, by decide⟩ hc.base ?_
      intro x hx
      rw [canon_one, List.mem_singleton] at hx
      subst hx
      exact ⟨show (58 : UInt8) ∉ canonKey b!"Session" by decide, show (13 : UInt8) ∉ canonKey b!"Session" by decide, hc.session⟩
    · cases h; exact hc
  | item i =>
    cases i with
    | frame ch p =>
      cases h
      refine { hc with out := ?_ }
      intro r q res hm
      rcases List.mem_cons.1 hm with hm | hm
      · cases hm
      · exact hc.out _ _ _ hm
    | response rsp =>
      have hc0 : CleanSess { s with out := .got rsp :: s.out } := by
        refine { hc with out := ?_ }
        intro r q res hm
        rcases List.mem_cons.1 hm with hm | hm
        · cases hm
        · exact hc.out _ _ _ hm
      have hpl : PlainAnswer rsp := hop
      have h : handleRtsp w { s with out := .got rsp :: s.out } rsp = .ok (s', e) := h
      unfold handleRtsp at h
      split at h
      · cases h; exact hc0
      · rename_i req hfind
        have hq : CleanReq req := by
          unfold Sess.find at hfind
          cases hf : s.queue.find? (fun e => e.1 = rsp.cseq) with
          | none => rw [hf] at hfind; cases hfind
          | some x =>
            rw [hf] at hfind
            cases hfind
            exact hc.queue _ (List.mem_of_find?_eq_some hf)
        split at h
        · exact retry_clean h (remove_clean _ hc0) hq (get_noCR hpl.1 _)
        · exact answer_clean h (learnSession_clean (remove_clean _ hc0) (get_noCR hpl.1 _)) hpl

theorem run_clean {w : World} : ∀ (ops : List Op) {s s' : Sess}, run w s ops = .ok s' → CleanSess s → (∀ op ∈ ops, PlainOp op) → CleanSess s' := by
  intro ops
  induction ops with
  | nil => intro s s' h hc _; cases h; exact hc
  | cons op ops ih =>
    intro s s' h hc hop
    rw [run] at h
    split at h
    · cases h
    · rename_i s1 e1 h1
      exact ih h (step_clean h1 hc (hop op (by simp))) (fun o ho => hop o (List.mem_cons_of_mem _ ho))

theorem open_clean {w : World} {uri : Bytes} {proto : Proto} {user : Option (Bytes × Bytes)} {s' : Sess} {e : Option SErr}
    (h : step w newSession (.open_ uri proto user) = .ok (s', e)) (hu : IsWord uri) (hn : ∀ u p, user = some (u, p) → (13 : UInt8) ∉ u) : CleanSess s' := by
  have hc : CleanSess { newSession with opened := true, baseURI := uri, proto := proto, user := user } := by
    refine ⟨hu, hn, ?_, ?_, List.not_mem_nil, ?_, ?_⟩
    · intro f d h; cases h
    · intro e h; cases h
    · intro f h; cases h
    · intro r q res h; cases h
  have h : command w { newSession with opened := true, baseURI := uri, proto := proto, user := user } verbOptions uri [] = .ok (s', e) := h
  exact simple_clean h hc ⟨by decide, by decide⟩

end Ouro
