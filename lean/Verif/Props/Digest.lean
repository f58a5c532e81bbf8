import Verif.Lemmas.Digest
/-! # Authentication: C41–C45 -/
namespace Ouro
open Spec

/-! ## C41 -/

theorem foldl_setParam (ps : List Param) (d : Digest) :
    let r := ps.foldl (fun d p => setParam d p.name p.value) d
    r.realm = (lastValue .realm ps).getD d.realm ∧ r.domain = (lastValue .domain ps).getD d.domain ∧
    r.nonce = (lastValue .nonce ps).getD d.nonce ∧ r.opaque_ = (lastValue .opaque_ ps).getD d.opaque_ ∧
    r.stale = (lastValue .stale ps).getD d.stale ∧
    r.algorithm = ((lastValue .algorithm ps).map toLower).getD d.algorithm ∧
    r.qop = ((lastValue .qop ps).map toLower).getD d.qop ∧ r.basic = d.basic ∧ r.uri = d.uri ∧ r.count = d.count := by
  induction ps generalizing d with
  | nil => simp [lastValue]
  | cons p t ih =>
    obtain ⟨i1, i2, i3, i4, i5, i6, i7, i8, i9, i10⟩ := ih (setParam d p.name p.value)
    simp only [List.foldl_cons]
    rw [i1, i2, i3, i4, i5, i6, i7, i8, i9, i10]
    simp only [lastValue]
    have getD_or : ∀ (o : Option Bytes) (x y : Bytes), (o.or (some x)).getD y = o.getD x := by intro o x y; cases o <;> rfl
    have map_or : ∀ (o : Option Bytes) (x y : Bytes), ((o.or (some x)).map toLower).getD y = (o.map toLower).getD (toLower x) := by
      intro o x y; cases o <;> rfl
    cases p.name <;> simp [setParam]

/-- **C41**, part. A challenge made of a scheme and one or more well-formed parameters (`Param.WF`), in any order, with any
white space around the parameters, any case of the names, and quotes or not: the result has the value of each parameter as
sent (of the last one if it occurs more than once; the empty string if there is none), with algorithm and qop in lower case,
the algorithm `md5` if none is given, and the first of several qop values. Only if there is a nonce and the algorithm is neither md5
nor md5-sess is it refused. Missing: see the refutations below. -/
theorem C41_parsed_partial (uri pre post : Bytes) (basic : Bool) (ps : List Param) (hne : ps ≠ []) (h : ∀ p ∈ ps, p.WF)
    (hl : ∀ p, ps.getLast? = some p → p.after = []) (hpre : ∀ c ∈ pre, asciiSpace c = true) (hpost : ∀ c ∈ post, asciiSpace c = true) :
    let r := newDigest uri (pre ++ ((if basic then b!"Basic " else b!"Digest ") ++ paramsText ps) ++ post)
    let algorithm := ((lastValue .algorithm ps).map toLower).getD b!"md5"
    (algorithm ∉ [b!"md5", b!"md5-sess"] ∧ (lastValue .nonce ps).getD [] ≠ [] → r = .error .notImplemented) ∧
    (algorithm ∈ [b!"md5", b!"md5-sess"] ∨ (lastValue .nonce ps).getD [] = [] → ∃ d, r = .ok d ∧
      d.basic = basic ∧ d.uri = uri ∧ d.realm = (lastValue .realm ps).getD [] ∧ d.nonce = (lastValue .nonce ps).getD [] ∧
      d.opaque_ = (lastValue .opaque_ ps).getD [] ∧ d.algorithm = algorithm ∧
      d.qop = ((lastValue .qop ps).map toLower).getD []) := by
  dsimp only
  rw [newDigest_params uri pre post basic ps hne h hl hpre hpost]
  dsimp only
  obtain ⟨i1, i2, i3, i4, i5, i6, i7, i8, i9, i10⟩ := foldl_setParam ps { uri := uri, algorithm := b!"md5", basic := basic }
  constructor
  · rintro ⟨ha, hn⟩
    rw [if_pos]
    rw [i3, i6]
    simp only [List.mem_cons, List.not_mem_nil, or_false, not_or] at ha
    exact ⟨hn, ha⟩
  · intro hok
    refine ⟨_, if_neg ?_, i8, i9, i1, i3, i4, i6, i7⟩
    rw [i3, i6]
    rintro ⟨hn, h1, h2⟩
    rcases hok with hok | hok
    · simp only [List.mem_cons, List.not_mem_nil, or_false] at hok
      rcases hok with hok | hok
      · exact h1 hok
      · exact h2 hok
    · exact hn hok

theorem lastValue_perm {ps qs : List Param} (hp : ps.Perm qs) (hd : ps.Pairwise fun p q => p.name ≠ q.name) (n : PName) :
    lastValue n ps = lastValue n qs := by
  induction hp with
  | nil => rfl
  | cons p _ ih => rw [List.pairwise_cons] at hd; simp only [lastValue, ih hd.2]
  | swap p q l =>
    rw [List.pairwise_cons] at hd
    have hne := hd.1 p (by simp)
    simp only [lastValue]
    by_cases h1 : q.name = n
    · have h2 : ¬ p.name = n := fun h => hne (h1.trans h.symm)
      simp [h1, h2]
    · simp [h1]
  | trans h1 _ ih1 ih2 =>
    have hd2 := (h1.pairwise_iff (R := fun p q : Param => p.name ≠ q.name) (fun h => fun e => h e.symm)).1 hd
    rw [ih1 hd, ih2 hd2]

/-- **C41**, part: the order of the parameters and the white space do not matter. -/
theorem C41_order_partial (uri : Bytes) (basic : Bool) (ps qs : List Param) (hne : ps ≠ []) (h : ∀ p ∈ ps, p.WF)
    (hd : ps.Pairwise fun p q => p.name ≠ q.name) (hp : ps.Perm qs)
    (hl : ∀ p, ps.getLast? = some p → p.after = []) (hl' : ∀ p, qs.getLast? = some p → p.after = []) :
    newDigest uri ((if basic then b!"Basic " else b!"Digest ") ++ paramsText ps) =
      newDigest uri ((if basic then b!"Basic " else b!"Digest ") ++ paramsText qs) := by
  have h1 := newDigest_params uri [] [] basic ps hne h hl (by simp) (by simp)
  have h2 := newDigest_params uri [] [] basic qs (by intro e; subst e; exact hne (List.perm_nil.1 hp))
    (fun q hq => h q (hp.mem_iff.2 hq)) hl' (by simp) (by simp)
  rw [List.nil_append, List.append_nil] at h1 h2
  rw [h1, h2]
  have : ps.foldl (fun d p => setParam d p.name p.value) { uri := uri, algorithm := b!"md5", basic := basic } =
      qs.foldl (fun d p => setParam d p.name p.value) { uri := uri, algorithm := b!"md5", basic := basic } := by
    have other : ∀ (ps : List Param) (d : Digest), (ps.foldl (fun d p => setParam d p.name p.value) d).username = d.username ∧
        (ps.foldl (fun d p => setParam d p.name p.value) d).cnonce = d.cnonce ∧ (ps.foldl (fun d p => setParam d p.name p.value) d).ha1 = d.ha1 ∧
        (ps.foldl (fun d p => setParam d p.name p.value) d).ha2 = d.ha2 ∧ (ps.foldl (fun d p => setParam d p.name p.value) d).nc = d.nc := by
      intro ps
      induction ps with
      | nil => intro d; exact ⟨rfl, rfl, rfl, rfl, rfl⟩
      | cons p t ih =>
        intro d
        obtain ⟨j1, j2, j3, j4, j5⟩ := ih (setParam d p.name p.value)
        simp only [List.foldl_cons]
        rw [j1, j2, j3, j4, j5]
        cases p.name <;> exact ⟨rfl, rfl, rfl, rfl, rfl⟩
    have ext : ∀ a b : Digest, a.realm = b.realm → a.domain = b.domain → a.nonce = b.nonce → a.opaque_ = b.opaque_ → a.stale = b.stale →
        a.algorithm = b.algorithm → a.qop = b.qop → a.basic = b.basic → a.uri = b.uri → a.count = b.count → a.username = b.username →
        a.cnonce = b.cnonce → a.ha1 = b.ha1 → a.ha2 = b.ha2 → a.nc = b.nc → a = b := by
      intro a b
      cases a; cases b
      simp only
      rintro rfl rfl rfl rfl rfl rfl rfl rfl rfl rfl rfl rfl rfl rfl rfl
      rfl
    obtain ⟨i1, i2, i3, i4, i5, i6, i7, i8, i9, i10⟩ := foldl_setParam ps { uri := uri, algorithm := b!"md5", basic := basic }
    obtain ⟨k1, k2, k3, k4, k5, k6, k7, k8, k9, k10⟩ := foldl_setParam qs { uri := uri, algorithm := b!"md5", basic := basic }
    obtain ⟨j1, j2, j3, j4, j5⟩ := other ps { uri := uri, algorithm := b!"md5", basic := basic }
    obtain ⟨l1, l2, l3, l4, l5⟩ := other qs { uri := uri, algorithm := b!"md5", basic := basic }
    have hv := lastValue_perm hp hd
    apply ext
    · rw [i1, k1, hv]
    · rw [i2, k2, hv]
    · rw [i3, k3, hv]
    · rw [i4, k4, hv]
    · rw [i5, k5, hv]
    · rw [i6, k6, hv]
    · rw [i7, k7, hv]
    · rw [i8, k8]
    · rw [i9, k9]
    · rw [i10, k10]
    · rw [j1, l1]
    · rw [j2, l2]
    · rw [j3, l3]
    · rw [j4, l4]
    · rw [j5, l5]
  rw [this]

/-- **C41**: any other scheme is refused. -/
theorem C41_scheme (uri challenge : Bytes) (h1 : ¬ b!"Digest " <+: trimSpace challenge) (h2 : ¬ b!"Basic " <+: trimSpace challenge) :
    newDigest uri challenge = .error .malformed := by
  unfold newDigest digestScheme
  rw [if_neg (by rw [List.isPrefixOf_iff_prefix]; exact h1), if_neg (by rw [List.isPrefixOf_iff_prefix]; exact h2)]

example : newDigest b!"/a" b!"Bearer realm=\"x\"" = .error .malformed := by
  refine C41_scheme _ _ ?_ ?_ <;> decide

/-- The challenge of the project's own test, with its parameters as `Param`s. -/
def challengeExample : List Param :=
  [{ name := .realm, written := b!"realm", value := b!"testrealm@host.com", quoted := true },
   { name := .qop, written := b!"QOP", value := b!"auth", more := [b!"auth-int"], quoted := true, before := b!" " },
   { name := .nonce, written := b!"nonce", value := b!"dcd98b7102dd2f0e8b11d0f600bfb0c093", quoted := true, before := b!" " },
   { name := .algorithm, written := b!"algorithm", value := b!"MD5", quoted := false, before := b!" " }]

example : paramsText challengeExample =
    b!"realm=\"testrealm@host.com\", QOP=\"auth,auth-int\", nonce=\"dcd98b7102dd2f0e8b11d0f600bfb0c093\", algorithm=MD5" := by decide

instance (p : Param) : Decidable p.WF := by unfold Param.WF; infer_instance

example : (∀ p ∈ challengeExample, p.WF) ∧ challengeExample.Pairwise (fun p q => p.name ≠ q.name) ∧
    (∀ p, challengeExample.getLast? = some p → p.after = []) := by
  refine ⟨by decide, by decide, ?_⟩
  intro p hp; injection hp with hp; subst hp; rfl

/-- **C41** does not hold for every well-formed challenge: RFC 2617 tells clients to ignore parameters they do not know. -/
theorem C41_unknown_refuted : newDigest b!"/a" b!"Digest realm=\"r\", nonce=\"n\", charset=\"UTF-8\"" = .error .malformed := by decide

/-- A quoted realm with a comma is cut short ... -/
theorem C41_comma_refuted : (newDigest b!"/a" b!"Digest realm=\"Acme, Inc.\", nonce=\"n\"").map (·.realm) = .ok b!"Acme" := by decide

/-- ... white space around the equals sign is refused, and so is the scheme in lower case. -/
theorem C41_spacing_refuted : newDigest b!"/a" b!"Digest realm = \"r\", nonce=\"n\"" = .error .malformed ∧
    newDigest b!"/a" b!"digest realm=\"r\", nonce=\"n\"" = .error .malformed := by decide

/-! ## C42, C43 -/

theorem digestParts_init (ps : List Bytes) (d r : Digest) (h : digestParts d ps = .ok r) :
    r.uri = d.uri ∧ r.count = d.count ∧ r.basic = d.basic := by
  induction ps generalizing d with
  | nil => injection h with h; subst h; exact ⟨rfl, rfl, rfl⟩
  | cons p t ih =>
    rw [digestParts] at h
    cases hp : digestPart d p with
    | error e => rw [hp] at h; cases h
    | ok d1 =>
      rw [hp] at h
      have h1 : d1.uri = d.uri ∧ d1.count = d.count ∧ d1.basic = d.basic := by
        have ha : ∀ a v d2, digestAttr d a v = .ok d2 → d2.uri = d.uri ∧ d2.count = d.count ∧ d2.basic = d.basic := by
          intro a v d2 h
          unfold digestAttr at h
          repeat' split at h
          all_goals cases h <;> exact ⟨rfl, rfl, rfl⟩
        unfold digestPart at hp
        dsimp only at hp
        split at hp
        · injection hp with hp; subst hp; exact ⟨rfl, rfl, rfl⟩
        · split at hp
          · split at hp
            · exact ha _ _ _ hp
            · injection hp with hp; subst hp; exact ⟨rfl, rfl, rfl⟩
          · injection hp with hp; subst hp; exact ⟨rfl, rfl, rfl⟩
      obtain ⟨a, b, c⟩ := ih d1 h
      exact ⟨a.trans h1.1, b.trans h1.2.1, c.trans h1.2.2⟩

theorem newDigest_init {uri challenge : Bytes} {d : Digest} (h : newDigest uri challenge = .ok d) : d.uri = uri ∧ d.count = 0 := by
  unfold newDigest at h
  split at h
  · cases h
  · rename_i basic rest _
    split at h
    · cases h
    · rename_i d1 hd
      have hi := digestParts_init _ _ _ hd
      split at h
      · split at h
        · cases h
        · injection h with h; subst h; exact ⟨hi.1, hi.2.1⟩
      · injection h with h; subst h; exact ⟨hi.1, hi.2.1⟩

/-- The client nonce made of the random bytes. -/
def clientNonce (rnd : Bytes) : Bytes := (hexEncode rnd).take 8

/-- A digest ready for requests; `sess` tells whether `ha1` has the client nonce hashed in. -/
structure Ready (md5 : Bytes → Bytes) (rnd : Bytes) (d0 : Digest) (user password : Bytes) (ha1 : Bytes) (d : Digest) : Prop where
  realm : d.realm = d0.realm
  nonce : d.nonce = d0.nonce
  algorithm : d.algorithm = d0.algorithm
  qop : d.qop = d0.qop
  uri : d.uri = d0.uri
  nc : d0.qop ≠ [] → d.nc = b!"00000001" ∧ d.cnonce = clientNonce rnd
  ha1 : d.ha1 = ha1

/-- The text in front of the response. -/
def authPrefix (d0 : Digest) (user : Bytes) : Bytes :=
  b!"Digest username=\"" ++ user ++ b!"\", realm=\"" ++ d0.realm ++ b!"\", nonce=\"" ++ d0.nonce ++
      b!"\", uri=\"" ++ d0.uri ++ b!"\", algorithm=\"" ++ d0.algorithm ++
      (if d0.opaque_ ≠ [] then b!"\", opaque=\"" ++ d0.opaque_ else []) ++ b!"\""

theorem authenticate_digest (md5 : Bytes → Bytes) (rnd user password : Bytes) (d0 : Digest) (hb : d0.basic = false) (hc : d0.count = 0) :
    ∃ d, authenticate md5 rnd d0 user password = .ok (.digest (authPrefix d0 user), d) ∧
      Ready md5 rnd d0 user password (md5hex md5 (colons user [d0.realm, password])) d := by
  unfold authenticate
  rw [if_neg (by simp [hb]), colonnade_ok, go_ok_bind]
  refine ⟨_, rfl, ?_⟩
  unfold digestNext
  by_cases hq : d0.qop = []
  · rw [if_pos hq]
    exact ⟨rfl, rfl, rfl, rfl, rfl, fun h => absurd hq h, rfl⟩
  · rw [if_neg hq]
    exact ⟨rfl, rfl, rfl, rfl, rfl, fun _ => ⟨by simp only [hc]; rfl, rfl⟩, rfl⟩

/-- What one request sends. -/
def sent (md5 : Bytes → Bytes) (rnd : Bytes) (d0 : Digest) (user : Bytes) (response : Bytes) : Bytes :=
  authorization user d0.realm d0.nonce d0.uri d0.algorithm d0.opaque_ d0.qop b!"00000001" (clientNonce rnd) response

theorem authCall_digest (md5 : Bytes → Bytes) (rnd user password : Bytes) (d0 d : Digest) (ha1 : Bytes)
    (h : Ready md5 rnd d0 user password ha1 d) (verb body : Bytes) :
    let ha1' := if d0.qop ≠ [] ∧ d0.algorithm = b!"md5-sess" then md5hex md5 (colons ha1 [d0.nonce, clientNonce rnd]) else ha1
    ∃ d', authCall md5 (.digest (authPrefix d0 user)) d verb body =
        .ok (sent md5 rnd d0 user
          (if d0.qop = [] then md5hex md5 (colons ha1' [d0.nonce, hashA2 (md5hex md5) d0.qop verb d0.uri body])
           else md5hex md5 (colons ha1' [d0.nonce, b!"00000001", clientNonce rnd, d0.qop, hashA2 (md5hex md5) d0.qop verb d0.uri body])), d') ∧
      Ready md5 rnd d0 user password ha1' d' := by
  dsimp only
  generalize he : (if d0.qop ≠ [] ∧ d0.algorithm = b!"md5-sess" then md5hex md5 (colons ha1 [d0.nonce, clientNonce rnd]) else ha1) = ha1'
  unfold authCall
  dsimp only
  unfold digestResponse
  have e1 : (if d.qop = b!"auth-int" then colonnade verb [d.uri, md5hex md5 body] else colonnade verb [d.uri] : Go Bytes) =
      .ok (if d0.qop = b!"auth-int" then colons verb [d0.uri, md5hex md5 body] else colons verb [d0.uri]) := by
    rw [h.qop, h.uri]
    split <;> exact colonnade_ok _ _
  have e2 : md5hex md5 (if d0.qop = b!"auth-int" then colons verb [d0.uri, md5hex md5 body] else colons verb [d0.uri]) =
      hashA2 (md5hex md5) d0.qop verb d0.uri body := by unfold hashA2; split <;> rfl
  rw [e1, go_ok_bind, e2]
  dsimp only
  by_cases hq : d0.qop = []
  · rw [if_neg (fun hc => hc.1 hq)] at he
    subst he
    rw [if_pos (by rw [h.qop]; exact hq), colonnade_ok, go_ok_bind, if_pos hq, h.ha1, h.nonce]
    refine ⟨{ d with ha2 := hashA2 (md5hex md5) d0.qop verb d0.uri body, nonce := d0.nonce, ha1 := ha1 }, ?_, ⟨h.realm, rfl, h.algorithm, h.qop, h.uri, fun hn => absurd hq hn, rfl⟩⟩
    rw [go_pure, go_ok_bind, go_pure]
    refine congrArg Except.ok (Prod.ext ?_ rfl)
    unfold sent authorization authPrefix
    rw [if_pos (show d0.qop = [] from hq)]
    by_cases ho : d0.opaque_ = [] <;> simp [ho, commaSpace, quotedParam]
  · rw [if_neg (by rw [h.qop]; exact hq), if_neg hq]
    obtain ⟨hnc, hcn⟩ := h.nc hq
    by_cases hs : d0.algorithm = b!"md5-sess"
    · rw [if_pos ⟨hq, hs⟩] at he
      subst he
      rw [if_pos (by rw [h.algorithm]; exact hs), colonnade_ok, go_ok_bind, go_pure, go_ok_bind, colonnade_ok, go_ok_bind]
      refine ⟨{ d with ha2 := hashA2 (md5hex md5) d0.qop verb d0.uri body, ha1 := md5hex md5 (colons d.ha1 [d.nonce, d.cnonce]) }, ?_, ⟨h.realm, h.nonce, h.algorithm, h.qop, h.uri, h.nc, ?_⟩⟩
      · rw [go_pure, go_ok_bind, go_pure]
        refine congrArg Except.ok (Prod.ext ?_ rfl)
        dsimp only
        rw [h.ha1, h.nonce, h.qop, hnc, hcn]
        unfold sent authorization authPrefix
        rw [if_neg hq]
        by_cases ho : d0.opaque_ = [] <;> simp [ho, commaSpace, quotedParam]
      · dsimp only
        rw [h.ha1, h.nonce, hcn]
    · rw [if_neg (fun hc => hs hc.2)] at he
      subst he
      rw [if_neg (by rw [h.algorithm]; exact hs), go_pure, go_ok_bind, colonnade_ok, go_ok_bind]
      refine ⟨{ d with ha2 := hashA2 (md5hex md5) d0.qop verb d0.uri body }, ?_, ⟨h.realm, h.nonce, h.algorithm, h.qop, h.uri, h.nc, h.ha1⟩⟩
      rw [go_pure, go_ok_bind, go_pure]
      refine congrArg Except.ok (Prod.ext ?_ rfl)
      dsimp only
      rw [h.ha1, h.nonce, h.qop, hnc, hcn]
      unfold sent authorization authPrefix
      rw [if_neg hq]
      by_cases ho : d0.opaque_ = [] <;> simp [ho, commaSpace, quotedParam]

/-- The value of the Authorization header RFC 2617 asks for, with nonce count 1. -/
def rfcAuthorization (md5 : Bytes → Bytes) (rnd : Bytes) (d0 : Digest) (user password verb body : Bytes) : Bytes :=
  authorization user d0.realm d0.nonce d0.uri d0.algorithm d0.opaque_ d0.qop b!"00000001" (clientNonce rnd)
    (requestDigest (md5hex md5) (d0.algorithm = b!"md5-sess") user d0.realm password d0.nonce b!"00000001" (clientNonce rnd)
      d0.qop verb d0.uri body)

/-- **C42**. For every hash function, random bytes, credentials, method and body: the first Authorization value after a challenge
has user, realm, nonce, URI, algorithm, opaque, qop, nonce count 1 and client nonce, and the request digest of RFC 2617 for
them. (The combination of md5-sess with no qop, for which RFC 2617 defines no digest, is excluded.) -/
theorem C42_response (md5 : Bytes → Bytes) (rnd uri challenge user password verb body : Bytes) (d0 : Digest)
    (h : newDigest uri challenge = .ok d0) (hb : d0.basic = false) (hs : d0.algorithm = b!"md5-sess" → d0.qop ≠ []) :
    ∃ f d d', authenticate md5 rnd d0 user password = .ok (f, d) ∧
      authCall md5 f d verb body = .ok (rfcAuthorization md5 rnd d0 user password verb body, d') := by
  obtain ⟨hu, hc⟩ := newDigest_init h
  obtain ⟨d, h1, h2⟩ := authenticate_digest md5 rnd user password d0 hb hc
  obtain ⟨d', h3, _⟩ := authCall_digest md5 rnd user password d0 d _ h2 verb body
  refine ⟨_, d, d', h1, ?_⟩
  rw [h3]
  unfold rfcAuthorization requestDigest hashA1 sent
  by_cases hq : d0.qop = []
  · have hs' : ¬ d0.algorithm = b!"md5-sess" := fun he => hs he hq
    simp only [hq, if_true, ne_eq, not_true_eq_false, false_and, if_false, hs', decide_false, Bool.false_eq_true]
  · simp only [hq, if_false, ne_eq, not_false_eq_true, true_and, decide_eq_true_eq]

/-- The hypotheses of C42 are met by an ordinary challenge with `qop="auth"`, md5-sess and opaque data. -/
example : ∃ d0, newDigest b!"rtsp://h/a" b!"Digest realm=\"r\", nonce=\"n\", qop=\"auth\", algorithm=MD5-sess, opaque=\"o\"" = .ok d0 ∧
    d0.basic = false ∧ d0.algorithm = b!"md5-sess" ∧ d0.qop ≠ [] ∧ d0.opaque_ = b!"o" :=
  ⟨{ uri := b!"rtsp://h/a", realm := b!"r", nonce := b!"n", qop := b!"auth", algorithm := b!"md5-sess", opaque_ := b!"o" }, by decide⟩

theorem authCalls_digest (md5 : Bytes → Bytes) (rnd user password : Bytes) (d0 : Digest)
    (hs : d0.algorithm ≠ b!"md5-sess") (reqs : List (Bytes × Bytes)) : ∀ d,
    Ready md5 rnd d0 user password (md5hex md5 (colons user [d0.realm, password])) d →
    authCalls md5 (.digest (authPrefix d0 user)) d reqs = .ok (reqs.map fun r => rfcAuthorization md5 rnd d0 user password r.1 r.2) := by
  induction reqs with
  | nil => intros; rfl
  | cons r t ih =>
    intro d h
    obtain ⟨verb, body⟩ := r
    obtain ⟨d', h1, h2⟩ := authCall_digest md5 rnd user password d0 d _ h verb body
    simp only [hs, and_false, if_false] at h1 h2
    rw [authCalls, h1, go_ok_bind]
    dsimp only
    rw [ih d' h2, go_ok_bind, go_pure, List.map_cons]
    congr 2
    unfold rfcAuthorization requestDigest hashA1 sent
    by_cases hq : d0.qop = []
    · simp only [hq, if_true, hs, decide_false, Bool.false_eq_true, if_false]
    · simp only [hq, if_false, hs, decide_false, Bool.false_eq_true]

/-- **C43**, part. With algorithm md5 every request of a session, however many there are, carries the request digest of RFC 2617.
Missing: md5-sess, for which only the first does (C42), see `C43_sess_refuted`. -/
theorem C43_every_request_partial (md5 : Bytes → Bytes) (rnd uri challenge user password : Bytes) (d0 : Digest)
    (h : newDigest uri challenge = .ok d0) (hb : d0.basic = false) (hs : d0.algorithm ≠ b!"md5-sess") (reqs : List (Bytes × Bytes)) :
    ∃ f d, authenticate md5 rnd d0 user password = .ok (f, d) ∧
      authCalls md5 f d reqs = .ok (reqs.map fun r => rfcAuthorization md5 rnd d0 user password r.1 r.2) := by
  obtain ⟨d, h1, h2⟩ := authenticate_digest md5 rnd user password d0 hb (newDigest_init h).2
  exact ⟨_, d, h1, authCalls_digest md5 rnd user password d0 hs reqs d h2⟩

example : ∃ d0, newDigest b!"rtsp://h/a" b!"Digest realm=\"r\", nonce=\"n\"" = .ok d0 ∧ d0.basic = false ∧ d0.algorithm ≠ b!"md5-sess" :=
  ⟨{ uri := b!"rtsp://h/a", realm := b!"r", nonce := b!"n", algorithm := b!"md5" }, by decide⟩

theorem hexEncode_inj {a b : Bytes} (h : hexEncode a = hexEncode b) : a = b := by
  rw [← hexDecode_encode a, h, hexDecode_encode]

theorem commaSpace_append_inj (l : List Bytes) (a b : Bytes) (h : commaSpace (l ++ [a]) = commaSpace (l ++ [b])) : a = b := by
  induction l with
  | nil => exact h
  | cons x t ih =>
    cases t with
    | nil => simpa [commaSpace] using h
    | cons y ys =>
      simp only [List.cons_append, commaSpace, List.append_assoc] at h
      apply ih
      exact List.append_cancel_left (as := x ++ b!", ") (by simpa using h)

theorem authorization_inj (user realm nonce uri algorithm opq qop nc cnonce r r' : Bytes)
    (h : authorization user realm nonce uri algorithm opq qop nc cnonce r = authorization user realm nonce uri algorithm opq qop nc cnonce r') :
    r = r' := by
  unfold authorization at h
  have h := List.append_cancel_left h
  have h := commaSpace_append_inj _ _ _ h
  unfold quotedParam at h
  exact List.append_cancel_left (List.append_cancel_right h)

/-- **C43** does not hold for md5-sess: for every hash function without collisions, every session whose challenge asks for it, with
any qop, fails at the second request: its digest is not that of RFC 2617. (The last hypothesis excludes credentials that happen to
contain their own hash.) -/
theorem C43_sess_refuted (md5 : Bytes → Bytes) (hinj : ∀ a b, md5 a = md5 b → a = b) (rnd uri challenge user password : Bytes) (d0 : Digest)
    (h : newDigest uri challenge = .ok d0) (hb : d0.basic = false) (hs : d0.algorithm = b!"md5-sess") (hq : d0.qop ≠ [])
    (hne : colons user [d0.realm, password] ≠ colons (md5hex md5 (colons user [d0.realm, password])) [d0.nonce, clientNonce rnd])
    (verb body verb' body' : Bytes) :
    ∃ f d a a', authenticate md5 rnd d0 user password = .ok (f, d) ∧ authCalls md5 f d [(verb, body), (verb', body')] = .ok [a, a'] ∧
      a = rfcAuthorization md5 rnd d0 user password verb body ∧ a' ≠ rfcAuthorization md5 rnd d0 user password verb' body' := by
  have hinj' : ∀ a b, md5hex md5 a = md5hex md5 b → a = b := fun a b h => hinj _ _ (hexEncode_inj h)
  obtain ⟨d, h1, h2⟩ := authenticate_digest md5 rnd user password d0 hb (newDigest_init h).2
  obtain ⟨d1, h3, h4⟩ := authCall_digest md5 rnd user password d0 d _ h2 verb body
  obtain ⟨d2, h5, _⟩ := authCall_digest md5 rnd user password d0 d1 _ h4 verb' body'
  simp only [hq, hs, ne_eq, not_false_eq_true, true_and, and_self, if_true, if_false] at h3 h5
  refine ⟨_, d, sent md5 rnd d0 user (md5hex md5 (colons (md5hex md5 (colons (md5hex md5 (colons user [d0.realm, password])) [d0.nonce, clientNonce rnd]))
      [d0.nonce, b!"00000001", clientNonce rnd, d0.qop, hashA2 (md5hex md5) d0.qop verb d0.uri body])),
    sent md5 rnd d0 user (md5hex md5 (colons (md5hex md5 (colons (md5hex md5 (colons (md5hex md5 (colons user [d0.realm, password])) [d0.nonce, clientNonce rnd]))
      [d0.nonce, clientNonce rnd])) [d0.nonce, b!"00000001", clientNonce rnd, d0.qop, hashA2 (md5hex md5) d0.qop verb' d0.uri body'])), h1, ?_, ?_, ?_⟩
  · rw [authCalls, h3, go_ok_bind]
    dsimp only
    rw [authCalls, h5, go_ok_bind]
    dsimp only
    rw [authCalls, go_pure, go_ok_bind, go_pure, go_ok_bind, go_pure]
  · unfold rfcAuthorization requestDigest hashA1 sent
    simp only [hq, if_false, hs, decide_true, if_true]
  · intro he
    unfold rfcAuthorization requestDigest hashA1 sent at he
    have he := authorization_inj _ _ _ _ _ _ _ _ _ _ _ he
    simp only [hq, if_false, hs, decide_true, if_true, true_and, ne_eq, not_false_eq_true] at he
    have he := hinj' _ _ he
    simp only [colons] at he
    have he := hinj' _ _ (List.append_cancel_right he)
    have he := hinj' _ _ (List.append_cancel_right he)
    exact hne he.symm

/-- A hash function and a session that meet the hypotheses. -/
example : ∃ (md5 : Bytes → Bytes) (d0 : Digest), (∀ a b, md5 a = md5 b → a = b) ∧
    newDigest b!"/a" b!"Digest realm=\"r\", nonce=\"n\", qop=auth, algorithm=md5-sess" = .ok d0 ∧ d0.basic = false ∧
    d0.algorithm = b!"md5-sess" ∧ d0.qop ≠ [] ∧
    colons b!"u" [d0.realm, b!"p"] ≠ colons (md5hex md5 (colons b!"u" [d0.realm, b!"p"])) [d0.nonce, clientNonce []] :=
  ⟨id, { uri := b!"/a", realm := b!"r", nonce := b!"n", qop := b!"auth", algorithm := b!"md5-sess" }, fun _ _ h => h, by decide⟩

/-! ## C44 -/

/-- **C44** does not hold: every request of a session carries nonce count 1 and the same client nonce. -/
theorem C44_refuted (md5 : Bytes → Bytes) (rnd uri challenge user password : Bytes) (d0 : Digest)
    (h : newDigest uri challenge = .ok d0) (hb : d0.basic = false) (reqs : List (Bytes × Bytes)) :
    ∃ f d as, authenticate md5 rnd d0 user password = .ok (f, d) ∧ authCalls md5 f d reqs = .ok as ∧ as.length = reqs.length ∧
      ∀ a ∈ as, ∃ response, a = authorization user d0.realm d0.nonce d0.uri d0.algorithm d0.opaque_ d0.qop b!"00000001" (clientNonce rnd) response := by
  obtain ⟨d, h1, h2⟩ := authenticate_digest md5 rnd user password d0 hb (newDigest_init h).2
  have : ∀ (reqs : List (Bytes × Bytes)) (ha1 : Bytes) (d : Digest), Ready md5 rnd d0 user password ha1 d →
      ∃ as, authCalls md5 (.digest (authPrefix d0 user)) d reqs = .ok as ∧ as.length = reqs.length ∧
      ∀ a ∈ as, ∃ response, a = authorization user d0.realm d0.nonce d0.uri d0.algorithm d0.opaque_ d0.qop b!"00000001" (clientNonce rnd) response := by
    intro reqs
    induction reqs with
    | nil => intro _ _ _; exact ⟨[], rfl, rfl, by simp⟩
    | cons r t ih =>
      intro ha1 d hr
      obtain ⟨verb, body⟩ := r
      obtain ⟨d', h3, h4⟩ := authCall_digest md5 rnd user password d0 d ha1 hr verb body
      obtain ⟨as, h5, h6, h7⟩ := ih _ d' h4
      have h8 : ∃ r, authCall md5 (.digest (authPrefix d0 user)) d verb body = .ok (sent md5 rnd d0 user r, d') := ⟨_, h3⟩
      obtain ⟨r, h8⟩ := h8
      refine ⟨sent md5 rnd d0 user r :: as, ?_, by rw [List.length_cons, List.length_cons, h6], ?_⟩
      · rw [authCalls, h8, go_ok_bind]
        dsimp only
        rw [h5, go_ok_bind, go_pure]
      · intro a ha
        rcases List.mem_cons.1 ha with rfl | ha
        · exact ⟨_, rfl⟩
        · exact h7 a ha
  obtain ⟨as, h5, h6, h7⟩ := this reqs _ d h2
  exact ⟨_, d, as, h1, h5, h6, h7⟩

theorem hexNumber_append (a b : Bytes) : hexNumber (a ++ b) = b.foldl (fun n c => n * 16 + (hexVal c).getD 0) (hexNumber a) := by
  unfold hexNumber; rw [List.foldl_append]

theorem hexDigit_number (n : Nat) (h : n < 16) (m : Nat) : [hexDigit n].foldl (fun n c => n * 16 + (hexVal c).getD 0) m = m * 16 + n := by
  have := hexVal_hexDigit ⟨n, h⟩
  simp only at this
  simp [this]

theorem hexDigitsLoop_number (fuel n : Nat) (h : n ≤ fuel) : hexNumber (hexDigitsLoop fuel n) = n := by
  induction fuel generalizing n with
  | zero =>
    obtain rfl : n = 0 := by omega
    decide
  | succ f ih =>
    rw [hexDigitsLoop]
    split
    · rename_i hn
      have := hexDigit_number n hn 0
      simpa [hexNumber] using this
    · rw [hexNumber_append, ih (n / 16) (by omega), hexDigit_number _ (by omega)]
      omega

theorem fmtHex8_number (n : Nat) : hexNumber (fmtHex8 n) = n := by
  unfold fmtHex8
  dsimp only
  rw [hexNumber_append]
  have hz : ∀ k, hexNumber (List.replicate k 48) = 0 := by
    intro k
    have : ∀ k, (List.replicate k (48 : UInt8)).foldl (fun n c => n * 16 + (hexVal c).getD 0) 0 = 0 := by
      intro k
      induction k with
      | zero => rfl
      | succ k ih => rw [List.replicate_succ, List.foldl_cons]; exact ih
    exact this k
  rw [hz]
  exact hexDigitsLoop_number n n (Nat.le_refl n)

/-- Any number of calls of `Next`, each with its own random bytes. -/
def nexts (d : Digest) (rnds : List Bytes) : Digest := rnds.foldl (fun d rnd => digestNext rnd d) d

/-- **C44**, part: if the caller calls `Next` between requests, the nonce count grows by one with each call and the text in the
header stands for that number, for any number of calls. Missing: the session never calls it. -/
theorem C44_next_partial (d : Digest) (hq : d.qop ≠ []) (rnds : List Bytes) (hne : rnds ≠ []) :
    hexNumber (nexts d rnds).nc = d.count + rnds.length := by
  have inv : ∀ (rnds : List Bytes) (d : Digest), d.qop ≠ [] → hexNumber d.nc = d.count →
      hexNumber (nexts d rnds).nc = d.count + rnds.length := by
    intro rnds
    induction rnds with
    | nil => intro d _ h; exact h
    | cons r t ih =>
      intro d hq h
      have hd : digestNext r d = { d with count := d.count + 1, nc := fmtHex8 (d.count + 1), cnonce := (hexEncode r).take 8 } := by
        unfold digestNext; rw [if_neg hq]
      have := ih (digestNext r d) (by rw [hd]; exact hq) (by rw [hd]; exact fmtHex8_number _)
      unfold nexts at *
      rw [List.foldl_cons, this, hd, List.length_cons]
      show d.count + 1 + t.length = _
      omega
  cases rnds with
  | nil => exact absurd rfl hne
  | cons r t =>
    have hd : digestNext r d = { d with count := d.count + 1, nc := fmtHex8 (d.count + 1), cnonce := (hexEncode r).take 8 } := by
      unfold digestNext; rw [if_neg hq]
    have := inv t (digestNext r d) (by rw [hd]; exact hq) (by rw [hd]; exact fmtHex8_number _)
    unfold nexts at *
    rw [List.foldl_cons, this, hd, List.length_cons]
    show d.count + 1 + t.length = _
    omega

example : (nexts { qop := b!"auth" } (List.replicate 17 [1, 2, 3, 4, 5, 6, 7, 8])).nc = b!"00000011" := by decide

/-! ## C45 -/

/-- **C45**. For a Basic challenge, every request of a session carries `Basic` and a text that is the base64 encoding of user,
colon and password, and that decodes, without error, to exactly that. -/
theorem C45_basic (md5 : Bytes → Bytes) (rnd uri challenge user password : Bytes) (d0 : Digest) (h : newDigest uri challenge = .ok d0)
    (hb : d0.basic = true) (reqs : List (Bytes × Bytes)) :
    ∃ f d t, authenticate md5 rnd d0 user password = .ok (f, d) ∧
      authCalls md5 f d reqs = .ok (reqs.map fun _ => b!"Basic " ++ t) ∧ t = b64Encode (user ++ b!":" ++ password) ∧
      b64Decode t = (user ++ b!":" ++ password, false) := by
  have hc : colons user [password] = user ++ b!":" ++ password := by simp [colons]
  refine ⟨.basic (b!"Basic " ++ b64Encode (user ++ b!":" ++ password)), d0, b64Encode (user ++ b!":" ++ password), ?_, ?_, rfl, b64Decode_encode _⟩
  · unfold authenticate
    rw [if_pos hb, colonnade_ok, go_ok_bind, hc, go_pure]
  · clear h
    induction reqs with
    | nil => rfl
    | cons r t ih =>
      obtain ⟨v, b⟩ := r
      rw [authCalls]
      simp only [authCall, go_pure, go_ok_bind] at *
      rw [ih]; rfl

example : ∃ d0, newDigest b!"/a" b!"Basic realm=\"cam\"" = .ok d0 ∧ d0.basic = true :=
  ⟨{ uri := b!"/a", realm := b!"cam", algorithm := b!"md5", basic := true }, by decide⟩

end Ouro
