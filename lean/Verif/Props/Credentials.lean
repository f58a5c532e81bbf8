import Verif.Props.Session
import Verif.Spec.Credentials
/-!
# C134: credentials, random numbers and the hash function show in nothing but the Authorization headers
-/
namespace Ouro
open Spec

/-- The text before what is computed for a request. -/
def AuthFunc.text : AuthFunc → Bytes
  | .basic a => a
  | .digest a => a

/-- A session without its credentials. -/
def unnamed (s : Sess) : Sess :=
  { s with user := s.user.map fun _ => ([], []), auth := s.auth.map fun _ => (.basic [], {}), queue := s.queue.map fun e => (e.1, bare e.2),
           out := s.out.map bareOut }

/-- Two sessions that are the same but for credentials. -/
structure Twin (s s' : Sess) : Prop where
  same : unnamed s = unnamed s'
  one : ∀ f d, s.auth = some (f, d) → f.text ≠ []
  two : ∀ f d, s'.auth = some (f, d) → f.text ≠ []

/-- The same of results. -/
inductive TwinR : Go (Sess × Option SErr) → Go (Sess × Option SErr) → Prop
  | ok {s s' : Sess} (e : Option SErr) (h : Twin s s') : TwinR (.ok (s, e)) (.ok (s', e))
  | error (p : Panic) : TwinR (.error p) (.error p)

section
variable {s s' : Sess}

theorem Twin.opened (h : Twin s s') : s'.opened = s.opened := (congrArg (Sess.opened) h.same).symm
theorem Twin.proto (h : Twin s s') : s'.proto = s.proto := (congrArg (Sess.proto) h.same).symm
theorem Twin.baseURI (h : Twin s s') : s'.baseURI = s.baseURI := (congrArg (Sess.baseURI) h.same).symm
theorem Twin.stage (h : Twin s s') : s'.stage = s.stage := (congrArg (Sess.stage) h.same).symm
theorem Twin.session (h : Twin s s') : s'.session = s.session := (congrArg (Sess.session) h.same).symm
theorem Twin.feeds (h : Twin s s') : s'.feeds = s.feeds := (congrArg (Sess.feeds) h.same).symm
theorem Twin.feedidx (h : Twin s s') : s'.feedidx = s.feedidx := (congrArg (Sess.feedidx) h.same).symm
theorem Twin.verbs (h : Twin s s') : s'.verbs = s.verbs := (congrArg (Sess.verbs) h.same).symm
theorem Twin.cseq (h : Twin s s') : s'.cseq = s.cseq := (congrArg (Sess.cseq) h.same).symm
theorem Twin.sinks (h : Twin s s') : s'.sinks = s.sinks := (congrArg (Sess.sinks) h.same).symm
theorem Twin.user (h : Twin s s') : (s.user.map fun _ => (([], []) : Bytes × Bytes)) = s'.user.map fun _ => ([], []) := congrArg (Sess.user) h.same
theorem Twin.auth (h : Twin s s') : (s.auth.map fun _ => ((.basic [], {}) : AuthFunc × Digest)) = s'.auth.map fun _ => (.basic [], {}) := congrArg (Sess.auth) h.same
theorem Twin.queue (h : Twin s s') : (s.queue.map fun e => (e.1, bare e.2)) = s'.queue.map fun e => (e.1, bare e.2) := congrArg (Sess.queue) h.same
theorem Twin.out (h : Twin s s') : s.out.map bareOut = s'.out.map bareOut := congrArg (Sess.out) h.same

/-- What a session did, more. -/
theorem Twin.did (h : Twin s s') {o o' : Out} (ho : bareOut o = bareOut o') : Twin { s with out := o :: s.out } { s' with out := o' :: s'.out } := by
  refine ⟨?_, h.one, h.two⟩
  have a : unnamed { s with out := o :: s.out } = { unnamed s with out := bareOut o :: (unnamed s).out } := rfl
  have b : unnamed { s' with out := o' :: s'.out } = { unnamed s' with out := bareOut o' :: (unnamed s').out } := rfl
  rw [a, b, h.same, ho]

theorem Twin.nextFeed (h : Twin s s') (fs : List Feed) : Twin { s with feedidx := s.feedidx + 1, feeds := fs } { s' with feedidx := s'.feedidx + 1, feeds := fs } := by
  refine ⟨?_, h.one, h.two⟩
  have a : unnamed { s with feedidx := s.feedidx + 1, feeds := fs } = { unnamed s with feedidx := (unnamed s).feedidx + 1, feeds := fs } := rfl
  have b : unnamed { s' with feedidx := s'.feedidx + 1, feeds := fs } = { unnamed s' with feedidx := (unnamed s').feedidx + 1, feeds := fs } := rfl
  rw [a, b, h.same]

theorem Twin.bump (h : Twin s s') : Twin { s with feedidx := s.feedidx + 1 } { s' with feedidx := s'.feedidx + 1 } := by
  refine ⟨?_, h.one, h.two⟩
  have a : unnamed { s with feedidx := s.feedidx + 1 } = { unnamed s with feedidx := (unnamed s).feedidx + 1 } := rfl
  have b : unnamed { s' with feedidx := s'.feedidx + 1 } = { unnamed s' with feedidx := (unnamed s').feedidx + 1 } := rfl
  rw [a, b, h.same]

theorem Twin.onlyFeeds (h : Twin s s') (fs : List Feed) : Twin { s with feeds := fs } { s' with feeds := fs } := by
  refine ⟨?_, h.one, h.two⟩
  have a : unnamed { s with feeds := fs } = { unnamed s with feeds := fs } := rfl
  have b : unnamed { s' with feeds := fs } = { unnamed s' with feeds := fs } := rfl
  rw [a, b, h.same]

theorem Twin.setSinks (h : Twin s s') (l : List (UInt8 × Int)) : Twin { s with sinks := l } { s' with sinks := l } := by
  refine ⟨?_, h.one, h.two⟩
  have a : unnamed { s with sinks := l } = { unnamed s with sinks := l } := rfl
  have b : unnamed { s' with sinks := l } = { unnamed s' with sinks := l } := rfl
  rw [a, b, h.same]

theorem Twin.setSession (h : Twin s s') (v : Bytes) : Twin { s with session := v } { s' with session := v } := by
  refine ⟨?_, h.one, h.two⟩
  have a : unnamed { s with session := v } = { unnamed s with session := v } := rfl
  have b : unnamed { s' with session := v } = { unnamed s' with session := v } := rfl
  rw [a, b, h.same]

theorem Twin.setVerbs (h : Twin s s') (v : List Bytes) : Twin { s with verbs := s.verbs ++ v } { s' with verbs := s'.verbs ++ v } := by
  refine ⟨?_, h.one, h.two⟩
  have a : unnamed { s with verbs := s.verbs ++ v } = { unnamed s with verbs := (unnamed s).verbs ++ v } := rfl
  have b : unnamed { s' with verbs := s'.verbs ++ v } = { unnamed s' with verbs := (unnamed s').verbs ++ v } := rfl
  rw [a, b, h.same]

theorem Twin.count (h : Twin s s') : Twin { s with cseq := s.cseq + 1 } { s' with cseq := s'.cseq + 1 } := by
  refine ⟨?_, h.one, h.two⟩
  have a : unnamed { s with cseq := s.cseq + 1 } = { unnamed s with cseq := (unnamed s).cseq + 1 } := rfl
  have b : unnamed { s' with cseq := s'.cseq + 1 } = { unnamed s' with cseq := (unnamed s').cseq + 1 } := rfl
  rw [a, b, h.same]

theorem Twin.notify (h : Twin s s') (n : Nat) : Twin (notify s n) (notify s' n) := by
  refine ⟨?_, h.one, h.two⟩
  have a : unnamed (Ouro.notify s n) = { unnamed s with stage := n, out := .notified n :: (unnamed s).out } := rfl
  have b : unnamed (Ouro.notify s' n) = { unnamed s' with stage := n, out := .notified n :: (unnamed s').out } := rfl
  rw [a, b, h.same]

theorem Twin.dial (h : Twin s s') (uri : Bytes) (proto : Proto) {u v : Option (Bytes × Bytes)}
    (hu : (u.map fun _ => (([], []) : Bytes × Bytes)) = v.map fun _ => ([], [])) :
    Twin { s with opened := true, baseURI := uri, proto := proto, user := u, sinks := [] } { s' with opened := true, baseURI := uri, proto := proto, user := v, sinks := [] } := by
  refine ⟨?_, h.one, h.two⟩
  have a : unnamed { s with opened := true, baseURI := uri, proto := proto, user := u, sinks := [] } =
      { unnamed s with opened := true, baseURI := uri, proto := proto, user := u.map fun _ => ([], []), sinks := [] } := rfl
  have b : unnamed { s' with opened := true, baseURI := uri, proto := proto, user := v, sinks := [] } =
      { unnamed s' with opened := true, baseURI := uri, proto := proto, user := v.map fun _ => ([], []), sinks := [] } := rfl
  rw [a, b, h.same, hu]

theorem Twin.setAuth (h : Twin s s') {f f' : AuthFunc} (d d' : Digest) (hf : f.text ≠ []) (hf' : f'.text ≠ []) :
    Twin { s with auth := some (f, d) } { s' with auth := some (f', d') } := by
  refine ⟨?_, fun g x e => ?_, fun g x e => ?_⟩
  · have a : unnamed { s with auth := some (f, d) } = { unnamed s with auth := some (.basic [], {}) } := rfl
    have b : unnamed { s' with auth := some (f', d') } = { unnamed s' with auth := some (.basic [], {}) } := rfl
    rw [a, b, h.same]
  · injection e with e; injection e with e _; subst e; exact hf
  · injection e with e; injection e with e _; subst e; exact hf'

theorem bare_fields {r r' : Request} (h : bare r = bare r') : r'.verb = r.verb ∧ r'.uri = r.uri ∧ r'.header = r.header ∧ r'.cseq = r.cseq ∧ r'.session = r.session :=
  ⟨(congrArg Request.verb h).symm, (congrArg Request.uri h).symm, (congrArg Request.header h).symm, (congrArg Request.cseq h).symm, (congrArg Request.session h).symm⟩

theorem bare_filter (n : Int) (q : List (Int × Request)) :
    (q.filter fun e => e.1 ≠ n).map (fun e => (e.1, bare e.2)) = (q.map fun e => (e.1, bare e.2)).filter fun e => e.1 ≠ n := by
  rw [List.filter_map]; rfl

theorem Twin.remove (h : Twin s s') (n : Int) : Twin (s.remove n) (s'.remove n) := by
  refine ⟨?_, h.one, h.two⟩
  have a : ∀ t : Sess, unnamed (t.remove n) = { unnamed t with queue := (unnamed t).queue.filter fun e => e.1 ≠ n } := fun t => by
    show { unnamed t with queue := (t.queue.filter fun e : Int × Request => e.1 ≠ n).map (fun e : Int × Request => (e.1, bare e.2)) } = _
    rw [bare_filter]; rfl
  rw [a, a, h.same]

theorem Twin.find (h : Twin s s') (n : Int) :
    (s.find n = none ∧ s'.find n = none) ∨ ∃ r r', s.find n = some r ∧ s'.find n = some r' ∧ bare r = bare r' := by
  have a : ∀ t : Sess, (t.find n).map bare = (((unnamed t).queue.find? fun e => e.1 = n).map (·.2)) := fun t => by
    show _ = (((t.queue.map fun e => (e.1, bare e.2)).find? fun e => e.1 = n).map (·.2))
    rw [List.find?_map]
    unfold Sess.find
    show _ = ((List.find? (fun e => e.1 = n) t.queue).map fun e => (e.1, bare e.2)).map (·.2)
    cases List.find? (fun e => decide (e.1 = n)) t.queue <;> rfl
  have b : (s.find n).map bare = (s'.find n).map bare := by rw [a, a, h.same]
  cases e1 : s.find n with
  | none =>
    cases e2 : s'.find n with
    | none => exact .inl ⟨rfl, rfl⟩
    | some r => rw [e1, e2] at b; cases b
  | some r =>
    cases e2 : s'.find n with
    | none => rw [e1, e2] at b; cases b
    | some r' => rw [e1, e2] at b; injection b with b; exact .inr ⟨r, r', rfl, rfl, b⟩

theorem Twin.enqueue (h : Twin s s') {r r' : Request} (hr : bare r = bare r') :
    bare (enqueue s r).1 = bare (enqueue s' r').1 ∧ Twin (enqueue s r).2 (enqueue s' r').2 := by
  have e : bare (Ouro.enqueue s r).1 = bare (Ouro.enqueue s' r').1 := by
    show { bare r with cseq := s.cseq, session := s.session } = { bare r' with cseq := s'.cseq, session := s'.session }
    rw [hr, h.cseq, h.session]
  refine ⟨e, ?_, h.one, h.two⟩
  have a : ∀ (t : Sess) (q : Request), unnamed (Ouro.enqueue t q).2 =
      { unnamed t with queue := ((unnamed t).queue.filter fun e => e.1 ≠ (t.cseq : Int)) ++ [((t.cseq : Int), bare (Ouro.enqueue t q).1)] } := fun t q => by
    show { unnamed t with queue := ((t.queue.filter fun e : Int × Request => e.1 ≠ (t.cseq : Int)) ++ [((t.cseq : Int), (Ouro.enqueue t q).1)]).map (fun e : Int × Request => (e.1, bare e.2)) } = _
    rw [List.map_append, bare_filter]; rfl
  rw [a, a, h.same, e, h.cseq]

end

section
variable {w w' : World} (hw : SameNetwork w w')
include hw

theorem Twin.writeReq {s s' : Sess} (h : Twin s s') (retry : Bool) {r r' : Request} (hr : bare r = bare r') :
    TwinR (writeReq w s retry r) (writeReq w' s' retry r') := by
  unfold Ouro.writeReq
  by_cases hp : s.proto = .http
  · rw [if_pos hp, if_pos (h.proto.trans hp)]
    exact .error _
  · rw [if_neg hp, if_neg fun e => hp (h.proto ▸ e)]
    dsimp only
    rw [← hw.write s.out s'.out r r' h.out hr]
    have k := fun x => h.did (o := .sent retry r x) (o' := .sent retry r' x) (by show Out.sent _ _ _ = Out.sent _ _ _; rw [hr])
    cases w.write s.out (r.pack r.header)
    · exact .ok _ (k _)
    · exact .ok _ (k _)
    · exact .ok _ (k _)

omit hw in
/-- A text that is not empty stays so in a call. -/
theorem authCall_text (md5 : Bytes → Bytes) (f : AuthFunc) (d : Digest) (verb body : Bytes) (hf : f.text ≠ []) :
    ∃ a d', authCall md5 f d verb body = .ok (a, d') ∧ a ≠ [] := by
  cases f with
  | basic a => exact ⟨a, d, rfl, hf⟩
  | digest a =>
    obtain ⟨⟨r, d'⟩, h⟩ := digestResponse_ok md5 d verb body
    refine ⟨a ++ r, d', ?_, fun e => hf (List.append_eq_nil_iff.1 e).1⟩
    unfold authCall
    dsimp only
    rw [h]; rfl

omit hw in
theorem Twin.callAuth {s s' : Sess} (h : Twin s s') (verb : Bytes) :
    ∃ a a' t t', callAuth w s verb = .ok (a, t) ∧ callAuth w' s' verb = .ok (a', t') ∧ Twin t t' ∧ (a = [] ↔ a' = []) := by
  unfold Ouro.callAuth
  have ha := h.auth
  cases e1 : s.auth with
  | none =>
    cases e2 : s'.auth with
    | none => exact ⟨[], [], s, s', rfl, rfl, h, Iff.rfl⟩
    | some x => rw [e1, e2] at ha; cases ha
  | some x =>
    cases e2 : s'.auth with
    | none => rw [e1, e2] at ha; cases ha
    | some y =>
      obtain ⟨f, d⟩ := x
      obtain ⟨f', d'⟩ := y
      obtain ⟨a, x, p1, p2⟩ := authCall_text w.md5 f d verb [] (h.one f d e1)
      obtain ⟨a', x', q1, q2⟩ := authCall_text w'.md5 f' d' verb [] (h.two f' d' e2)
      dsimp only
      rw [p1, q1]
      exact ⟨a, a', _, _, rfl, rfl, h.setAuth x x' (h.one f d e1) (h.two f' d' e2), ⟨fun e => absurd e p2, fun e => absurd e q2⟩⟩

omit hw in
theorem bare_auth (r : Request) {a a' : Bytes} (h : a = [] ↔ a' = []) : bare { r with auth := a } = bare { r with auth := a' } := by
  unfold bare
  by_cases e : a = []
  · rw [e, h.1 e]
  · have e' : a' ≠ [] := fun x => e (h.2 x)
    dsimp only
    rw [if_neg e, if_neg e']

theorem Twin.command {s s' : Sess} (h : Twin s s') (verb uri : Bytes) (headers : Header) : TwinR (command w s verb uri headers) (command w' s' verb uri headers) := by
  unfold Ouro.command
  rw [h.opened]
  split
  · exact .ok _ h
  · obtain ⟨a, a', t, t', e1, e2, ht, ha⟩ := Twin.callAuth (w := w) (w' := w') h verb
    rw [e1, e2]
    obtain ⟨x, y⟩ := ht.count.enqueue (bare_auth { verb, uri, header := headers.foldl (fun h e => h.set e.1 e.2) [] } ha)
    exact Twin.writeReq hw y false x

omit hw in
theorem Twin.deref {s s' : Sess} (h : Twin s s') {k k' : Go (Sess × Option SErr)} (hk : TwinR k k') : TwinR (s.deref k) (s'.deref k') := by
  unfold Sess.deref
  rw [h.opened]
  split
  · exact .error _
  · exact hk

theorem Twin.setupLoop (fs : List Feed) : ∀ (done : List Feed) {s s' : Sess}, Twin s s' → TwinR (setupLoop w done fs s) (setupLoop w' done fs s') := by
  induction fs with
  | nil => intro done s s' h; exact .ok _ h
  | cons f fs ih =>
    intro done s s' h
    rw [Ouro.setupLoop, Ouro.setupLoop, h.baseURI]
    have := Twin.command hw h verbSetup (setupURI s.baseURI f.media.control) [(b!"Transport", f.transportHeader)]
    revert this
    generalize Ouro.command w s verbSetup _ _ = x
    generalize Ouro.command w' s' verbSetup _ _ = y
    intro k
    cases k with
    | error p => exact .error p
    | ok e k =>
      cases e with
      | some e => exact .ok _ k
      | none =>
        dsimp only
        rename_i t t'
        rw [show ({ f with cseq := (t'.cseq : Int) } : Feed) = { f with cseq := (t.cseq : Int) } by rw [k.cseq]]
        exact ih _ (k.onlyFeeds _)

theorem Twin.addSink {s s' : Sess} (h : Twin s s') (ch : UInt8) (port : Int) :
    (addSink w s ch port).2 = (addSink w' s' ch port).2 ∧ Twin (addSink w s ch port).1 (addSink w' s' ch port).1 := by
  unfold Ouro.addSink
  rw [show w'.listen s'.out s'.sinks port = w.listen s.out s.sinks port by rw [h.sinks, ← hw.listen s.out s'.out s.sinks port h.out]]
  cases w.listen s.out s.sinks port
  · have := h.setSinks (s.sinks ++ [(ch, port)])
    refine ⟨rfl, ?_⟩
    dsimp only
    rw [show s'.sinks ++ [(ch, port)] = s.sinks ++ [(ch, port)] by rw [h.sinks]]
    exact this
  · exact ⟨rfl, h⟩
  · exact ⟨rfl, h⟩

theorem Twin.setupAnswer (rsp : Response) (fs : List Feed) : ∀ (done : List Feed) {s s' : Sess}, Twin s s' →
    TwinR (setupAnswer w rsp done fs s) (setupAnswer w' rsp done fs s') := by
  induction fs with
  | nil => intro done s s' h; exact .ok _ h
  | cons f fs ih =>
    intro done s s' h
    rw [Ouro.setupAnswer, Ouro.setupAnswer, ← hw.inf]
    split
    · rcases f.transportSetup w.inf (rsp.header.get b!"Transport") with p | ⟨f', _ | e⟩
      · exact .error p
      · dsimp only
        have k := h.nextFeed (done ++ f' :: fs)
        have c : UInt8.ofNat (s'.feedidx + 1) * 2 = UInt8.ofNat (s.feedidx + 1) * 2 := by rw [h.feedidx]
        rw [c]
        split
        · exact ih _ k
        · obtain ⟨a, b⟩ := Twin.addSink hw k (UInt8.ofNat (s.feedidx + 1) * 2) f'.transp.port.one
          revert a b
          generalize Ouro.addSink w { s with feedidx := s.feedidx + 1, feeds := done ++ f' :: fs } (UInt8.ofNat (s.feedidx + 1) * 2) f'.transp.port.one = x
          generalize Ouro.addSink w' { s' with feedidx := s'.feedidx + 1, feeds := done ++ f' :: fs } (UInt8.ofNat (s.feedidx + 1) * 2) f'.transp.port.one = y
          obtain ⟨s2, e⟩ := x
          obtain ⟨s2', e'⟩ := y
          intro a b
          dsimp only at a b
          subst a
          cases e with
          | some e => exact .ok _ b
          | none =>
            dsimp only
            obtain ⟨a, b⟩ := Twin.addSink hw b (UInt8.ofNat (s.feedidx + 1) * 2 + 1) f'.transp.port.two
            revert a b
            generalize Ouro.addSink w s2 (UInt8.ofNat (s.feedidx + 1) * 2 + 1) f'.transp.port.two = x
            generalize Ouro.addSink w' s2' (UInt8.ofNat (s.feedidx + 1) * 2 + 1) f'.transp.port.two = y
            obtain ⟨s3, e⟩ := x
            obtain ⟨s3', e'⟩ := y
            intro a b
            dsimp only at a b
            subst a
            cases e with
            | some e => exact .ok _ b
            | none => exact ih _ b
      · dsimp only
        exact .ok _ (h.nextFeed _)
    · exact ih _ h

omit hw in
theorem Twin.checkReady {s s' : Sess} (h : Twin s s') : Twin (checkReady s) (checkReady s') := by
  unfold Ouro.checkReady
  by_cases hn : s.feedidx ≥ s.feeds.length
  · rw [if_pos hn, if_pos (by rw [h.feedidx, h.feeds]; exact hn)]
    dsimp only
    refine (h.notify stageReady).did ?_
    show Out.started s.sinks = Out.started s'.sinks
    rw [h.sinks]
  · rw [if_neg hn, if_neg (by rw [h.feedidx, h.feeds]; exact hn)]
    exact h

theorem Twin.handleSetup {s s' : Sess} (h : Twin s s') (rsp : Response) : TwinR (handleSetup w s rsp) (handleSetup w' s' rsp) := by
  unfold Ouro.handleSetup
  split
  · rw [h.feeds]
    have := Twin.setupAnswer hw rsp s.feeds [] h
    revert this
    generalize Ouro.setupAnswer w rsp [] s.feeds s = x
    generalize Ouro.setupAnswer w' rsp [] s.feeds s' = y
    intro k
    cases k with
    | error p => exact .error p
    | ok e k =>
      cases e with
      | some e => exact .ok _ k
      | none => exact .ok _ k.checkReady
  · split
    · exact .ok _ h.bump.checkReady
    · exact .ok _ h.checkReady

omit hw in
/-- Every function made for a challenge has a text. -/
theorem authenticate_text (md5 : Bytes → Bytes) (rnd : Bytes) (d : Digest) (u p : Bytes) : ∃ f d', authenticate md5 rnd d u p = .ok (f, d') ∧ f.text ≠ [] := by
  unfold authenticate
  split
  · rw [colonnade_ok]; exact ⟨_, _, rfl, by simp [AuthFunc.text]⟩
  · rw [colonnade_ok]; exact ⟨_, _, rfl, by simp [AuthFunc.text]⟩

omit hw in
theorem authorize_user (s : Sess) (challenge : Bytes) {u : Bytes × Bytes} (e : s.user = some u) : authorize w s challenge =
    match newDigest s.baseURI challenge with
    | .error e => pure (s, some (.auth e))
    | .ok d =>
      match authenticate w.md5 (w.rnd s.out) d u.1 u.2 with
      | .error p => .error p
      | .ok (f, d) => pure ({ s with auth := some (f, d) }, none) := by
  unfold authorize
  rw [e]
  rcases newDigest s.baseURI challenge with _ | _ <;> rfl

omit hw in
theorem authorize_nobody (s : Sess) (challenge : Bytes) (e : s.user = none) : authorize w s challenge =
    match newDigest s.baseURI challenge with
    | .error e => pure (s, some (.auth e))
    | .ok _ => pure (s, some .noCredentials) := by
  unfold authorize
  rw [e]
  rcases newDigest s.baseURI challenge with _ | _ <;> rfl

omit hw in
theorem Twin.authorize {s s' : Sess} (h : Twin s s') (challenge : Bytes) : TwinR (authorize w s challenge) (authorize w' s' challenge) := by
  have hu := h.user
  have hd : newDigest s'.baseURI challenge = newDigest s.baseURI challenge := by rw [h.baseURI]
  cases e1 : s.user with
  | none =>
    cases e2 : s'.user with
    | none =>
      rw [authorize_nobody s challenge e1, authorize_nobody s' challenge e2, hd]
      rcases newDigest s.baseURI challenge with e | d <;> exact .ok _ h
    | some x => rw [e1, e2] at hu; cases hu
  | some x =>
    cases e2 : s'.user with
    | none => rw [e1, e2] at hu; cases hu
    | some y =>
      rw [authorize_user s challenge e1, authorize_user s' challenge e2, hd]
      rcases newDigest s.baseURI challenge with e | d
      · exact .ok _ h
      · obtain ⟨f, x', a1, a2⟩ := authenticate_text w.md5 (w.rnd s.out) d x.1 x.2
        obtain ⟨f', y', b1, b2⟩ := authenticate_text w'.md5 (w'.rnd s'.out) d y.1 y.2
        dsimp only
        rw [a1, b1]
        exact .ok _ (h.setAuth _ _ a2 b2)

theorem Twin.retry {s s' : Sess} (h : Twin s s') {r r' : Request} (hr : bare r = bare r') (challenge : Bytes) : TwinR (retry w s r challenge) (retry w' s' r' challenge) := by
  unfold Ouro.retry
  have := Twin.authorize (w := w) (w' := w') h challenge
  revert this
  generalize Ouro.authorize w s challenge = x
  generalize Ouro.authorize w' s' challenge = y
  intro k
  cases k with
  | error p => exact .error p
  | ok e k =>
    cases e with
    | some e => exact .ok _ k
    | none =>
      dsimp only
      obtain ⟨v, u, hh, c, i⟩ := bare_fields hr
      obtain ⟨a, a', t, t', e1, e2, ht, ha⟩ := Twin.callAuth (w := w) (w' := w') k r.verb
      rw [← v] at e2
      rw [e1, e2]
      have b : bare { r with auth := a } = bare { r' with auth := a' } := by
        have : ({ r' with auth := a' } : Request) = { r with auth := a' } := by rw [v, u, hh, c, i]
        rw [this]
        exact bare_auth r ha
      obtain ⟨x, y⟩ := ht.enqueue b
      exact Twin.writeReq hw y true x

omit hw in
theorem Twin.learn {s s' : Sess} (h : Twin s s') (v : Bytes) : Twin (learnSession s v) (learnSession s' v) := by
  unfold learnSession
  split
  · cases split 59 v with
    | nil => exact h
    | cons f t => exact h.setSession f
  · exact h

theorem Twin.send {s s' : Sess} (h : Twin s s') (verb : Bytes) (headers : Header) :
    TwinR (s.deref (Ouro.command w s verb s.baseURI headers)) (s'.deref (Ouro.command w' s' verb s'.baseURI headers)) := by
  refine Twin.deref h ?_
  rw [h.baseURI]
  exact Twin.command hw h _ _ _

theorem Twin.answer {s s' : Sess} (h : Twin s s') (verb : Bytes) (rsp : Response) : TwinR (answer w s verb rsp) (answer w' s' verb rsp) := by
  unfold Ouro.answer
  split
  · rw [show (if s'.stage = stageInit then Sess.describe w' { s' with verbs := s'.verbs ++ split2 44 32 (rsp.header.get b!"Public") } else pure (s', none)) =
      if s.stage = stageInit then Sess.describe w' { s' with verbs := s'.verbs ++ split2 44 32 (rsp.header.get b!"Public") } else pure (s', none) by
        by_cases hs : s.stage = stageInit
        · rw [if_pos hs, if_pos (h.stage.trans hs)]
        · rw [if_neg hs, if_neg fun e => hs (h.stage ▸ e)]]
    split
    · have k := h.setVerbs (split2 44 32 (rsp.header.get b!"Public"))
      exact Twin.send hw k _ _
    · exact .ok _ h
  · split
    · cases rsp.body with
      | none => exact .ok _ h
      | some body =>
        dsimp only
        rw [show parseFeeds s'.proto body = parseFeeds s.proto body by rw [h.proto]]
        rcases parseFeeds s.proto body with p | feeds
        · exact .error p
        · exact Twin.setupLoop hw feeds [] (h.onlyFeeds feeds)
    · split
      · split
        · exact .ok _ (h.notify _)
        · exact .ok _ h
      · split
        · split
          · exact .ok _ (h.notify _)
          · exact .ok _ h
        · split
          · split
            · exact .ok _ (h.notify _)
            · exact .ok _ h
          · split
            · exact Twin.handleSetup hw h rsp
            · exact .ok _ h

theorem Twin.handleRtsp {s s' : Sess} (h : Twin s s') (rsp : Response) : TwinR (handleRtsp w s rsp) (handleRtsp w' s' rsp) := by
  unfold Ouro.handleRtsp
  rcases h.find rsp.cseq with ⟨a, b⟩ | ⟨r, r', a, b, hr⟩
  · rw [a, b]; exact .ok _ h
  · rw [a, b]
    dsimp only
    split
    · exact Twin.retry hw (h.remove _) hr _
    · rw [(bare_fields hr).1]
      exact Twin.answer hw ((h.remove _).learn _) _ _

theorem Twin.step {s s' : Sess} (h : Twin s s') {op op' : Op} (hop : bareOp op = bareOp op') : TwinR (step w s op) (step w' s' op') := by
  cases op with
  | dial uri proto user =>
    cases op' <;> try (cases hop; done)
    injection hop with h1 h2 h3
    subst h1; subst h2
    exact .ok _ (h.dial _ _ h3)
  | open_ uri proto user =>
    cases op' <;> try (cases hop; done)
    injection hop with h1 h2 h3
    subst h1; subst h2
    exact Twin.send hw (h.dial _ _ h3) _ _
  | options => cases op' <;> cases hop; exact Twin.send hw h _ _
  | describe => cases op' <;> cases hop; exact Twin.send hw h _ _
  | setup =>
    cases op' <;> cases hop
    show TwinR (Ouro.setupLoop w [] s.feeds s) (Ouro.setupLoop w' [] s'.feeds s')
    rw [h.feeds]
    exact Twin.setupLoop hw s.feeds [] h
  | play => cases op' <;> cases hop; exact Twin.send hw h _ _
  | pause => cases op' <;> cases hop; exact Twin.send hw h _ _
  | teardown => cases op' <;> cases hop; exact Twin.send hw h _ _
  | keepAlive due =>
    cases op' <;> cases hop
    refine Twin.deref h ?_
    rw [h.proto, h.stage]
    split
    · rw [h.baseURI, h.session]; exact Twin.command hw h _ _ _
    · exact .ok _ h
  | item i =>
    cases op' <;> cases hop
    cases i with
    | frame ch p => exact .ok _ (h.did rfl)
    | response rsp => exact Twin.handleRtsp hw (h.did rfl) rsp

/-- C134: over a history. -/
theorem Twin.run (ops : List Op) : ∀ (ops' : List Op), ops.map bareOp = ops'.map bareOp → ∀ {s s' : Sess}, Twin s s' →
    (∃ p, run w s ops = .error p ∧ run w' s' ops' = .error p) ∨ ∃ t t', run w s ops = .ok t ∧ run w' s' ops' = .ok t' ∧ Twin t t' := by
  induction ops with
  | nil =>
    intro ops' e s s' h
    have : ops' = [] := List.map_eq_nil_iff.1 e.symm
    subst this
    exact .inr ⟨s, s', rfl, rfl, h⟩
  | cons op ops ih =>
    intro ops' e s s' h
    cases ops' with
    | nil => cases e
    | cons op' ops' =>
      rw [List.map_cons, List.map_cons] at e
      injection e with e1 e2
      have := Twin.step hw h e1
      rw [Ouro.run, Ouro.run]
      revert this
      generalize Ouro.step w s op = x
      generalize Ouro.step w' s' op' = y
      intro k
      cases k with
      | error p => exact .inl ⟨p, rfl, rfl⟩
      | ok e k => exact ih ops' e2 k

end

/-- C134: two sessions in two worlds with the same network, but other random numbers and another hash function, to which the same happens but for which credentials
the user gives (some in both or none in both): both panic, in the same way, or after both the same requests have been written in the same order, apart from the
values of the Authorization headers - which requests have one is the same -, the same notified, received and delivered; the state, the streams, the number of the
last request and the URI are the same; and any further call returns the same error or none. -/
theorem C134_exact {w w' : World} (hw : SameNetwork w w') (ops ops' : List Op) (hops : ops.map bareOp = ops'.map bareOp) :
    (∀ p, run w newSession ops = .error p ↔ run w' newSession ops' = .error p) ∧
    ∀ s, run w newSession ops = .ok s → ∃ s', run w' newSession ops' = .ok s' ∧ s'.out.map bareOut = s.out.map bareOut ∧
      s'.stage = s.stage ∧ s'.feeds = s.feeds ∧ s'.session = s.session ∧ s'.cseq = s.cseq ∧ s'.baseURI = s.baseURI ∧ s'.sinks = s.sinks ∧
      ∀ op op', bareOp op = bareOp op' → (step w' s' op').map (·.2) = (step w s op).map (·.2) := by
  have t0 : Twin newSession newSession := ⟨rfl, fun f d e => (by cases e), fun f d e => (by cases e)⟩
  rcases Twin.run hw ops ops' hops t0 with ⟨p, a, b⟩ | ⟨t, t', a, b, h⟩
  · rw [a, b]
    exact ⟨fun q => Iff.rfl, fun s e => by cases e⟩
  · rw [a, b]
    refine ⟨fun q => ⟨fun e => by (cases e), fun e => by (cases e)⟩, fun s e => ?_⟩
    injection e with e
    subst e
    refine ⟨t', rfl, h.out.symm, h.stage, h.feeds, h.session, h.cseq, h.baseURI, h.sinks, fun op op' e => ?_⟩
    have := Twin.step hw h e
    revert this
    generalize step w t op = x
    generalize step w' t' op' = y
    intro k
    cases k <;> rfl

/-- A network on which everything works, with any hash function and any random numbers. -/
theorem sameNetwork (md5 md5' : Bytes → Bytes) (inf : Nat) (rnd rnd' : List Out → Bytes) :
    SameNetwork ⟨md5, inf, rnd, fun _ _ => .ok, fun _ _ _ => .ok⟩ ⟨md5', inf, rnd', fun _ _ => .ok, fun _ _ _ => .ok⟩ :=
  ⟨rfl, fun _ _ _ _ _ _ => rfl, fun _ _ _ _ _ => rfl⟩

/-- A user opens a URI and is asked for a digest: the Authorization headers of the requests, the latest first. -/
def asked (hash : UInt8) (user : Bytes) : Option (List Bytes) :=
  match run ⟨fun _ => [hash], 0, fun _ => [], fun _ _ => .ok, fun _ _ _ => .ok⟩ newSession
    [.open_ b!"rtsp://h" .tcp (some (user, b!"x")), .item (.response ⟨[], [], 401, 0, 1, [(b!"Www-Authenticate", b!"Digest realm=\"r\", nonce=\"n\"")], none⟩)] with
  | .ok s => some (s.out.filterMap fun o => match o with | .sent _ q _ => some q.auth | _ => none)
  | .error _ => none

/-- Two users and two hash functions: only the last of them differ. -/
example : asked 1 b!"ann" = some [b!"Digest username=\"ann\", realm=\"r\", nonce=\"n\", uri=\"rtsp://h\", algorithm=\"md5\", response=\"01\"", []] ∧
    asked 2 b!"bob" = some [b!"Digest username=\"bob\", realm=\"r\", nonce=\"n\", uri=\"rtsp://h\", algorithm=\"md5\", response=\"02\"", []] := by
  decide +kernel

end Ouro
