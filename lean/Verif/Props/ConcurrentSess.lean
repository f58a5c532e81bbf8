import Verif.Props.ConcurrentAuth
import Verif.Props.DigestSess

/-! C147 for md5-sess: requests authorized at the same time hash the shared session key again and again, and may read each other's. -/

namespace Ouro
open Spec

section ConcurrentSess
variable {md5 : Bytes → Bytes} {base user password : Bytes}

/-- Where the state of a call comes from. -/
theorem call_back {ts : List AuthTurn} {t : AuthTurn} {k : Nat} {v : Bytes} {p : AuthPc} (h : CallAt md5 base user password (ts ++ [t]) k v p) :
    CallAt md5 base user password ts k v p ∨ p = .start ∨ p = .bare ∨ (∃ o, p = .bound o) ∨
    ∃ pc o f d, t = .go k ∧ CallAt md5 base user password ts k v pc ∧ pc.obj = some o ∧
      (authTurns md5 base user password ts).funcs[o]? = some (f, d) ∧ p = (respond md5 v f d pc).2 := by
  unfold CallAt at *
  rw [authTurns_snoc] at h
  generalize authTurns md5 base user password ts = s at *
  cases t with
  | challenge c rnd =>
    simp only [authTurn] at h
    split at h
    · exact .inl h
    · split at h <;> exact .inl h
  | call w =>
    simp only [authTurn] at h
    rw [List.getElem?_append] at h
    split at h
    · exact .inl h
    · rcases Nat.eq_zero_or_pos (k - s.calls.length) with h0 | h0
      · rw [h0] at h
        simp only [List.getElem?_cons_zero, Option.some.injEq, Prod.mk.injEq] at h
        exact .inr (.inl h.2.symm)
      · obtain ⟨m, hm⟩ := Nat.exists_eq_succ_of_ne_zero (Nat.pos_iff_ne_zero.1 h0)
        rw [hm] at h
        simp at h
  | go j =>
    simp only [authTurn] at h
    cases hj : s.calls[j]? with
    | none => rw [hj] at h; exact .inl h
    | some vp =>
      obtain ⟨w, pc⟩ := vp
      rw [hj] at h
      dsimp only at h
      have hlt := (List.getElem?_eq_some_iff.1 hj).1
      by_cases hst : pc = .start
      · rw [if_pos hst] at h
        dsimp only at h
        by_cases hk : k = j
        · subst hk
          rw [List.getElem?_set_self hlt] at h
          injection h with h
          injection h with _ h
          split at h
          · exact .inr (.inr (.inl h.symm))
          · exact .inr (.inr (.inr (.inl ⟨_, h.symm⟩)))
        · rw [List.getElem?_set_ne (Ne.symm hk)] at h
          exact .inl h
      · rw [if_neg hst] at h
        cases ho : pc.obj with
        | none => rw [ho] at h; exact .inl h
        | some o =>
          rw [ho] at h
          dsimp only at h
          cases hf : s.funcs[o]? with
          | none => rw [hf] at h; exact .inl h
          | some fd =>
            obtain ⟨f, d⟩ := fd
            rw [hf] at h
            dsimp only at h
            by_cases hk : k = j
            · subst hk
              rw [List.getElem?_set_self hlt] at h
              injection h with h
              injection h with h1 h2
              subst h1
              exact .inr (.inr (.inr (.inr ⟨pc, o, f, d, rfl, hj, ho, hf, h2.symm⟩)))
            · rw [List.getElem?_set_ne (Ne.symm hk)] at h
              exact .inl h

/-- Where the state of a challenge's digest comes from. -/
theorem func_back {ts : List AuthTurn} {t : AuthTurn} {o : Nat} {f : AuthFunc} {d : Digest}
    (h : (authTurns md5 base user password (ts ++ [t])).funcs[o]? = some (f, d)) :
    ((authTurns md5 base user password ts).funcs[o]? = some (f, d) ∧
      ∀ k v pc, t = .go k → CallAt md5 base user password ts k v pc → pc.obj = some o → False) ∨
    (∃ c rnd d0, t = .challenge c rnd ∧ o = (authTurns md5 base user password ts).funcs.length ∧ newDigest base c = .ok d0 ∧
      authenticate md5 rnd d0 user password = .ok (f, d)) ∨
    ∃ k v pc d', t = .go k ∧ CallAt md5 base user password ts k v pc ∧ pc.obj = some o ∧
      (authTurns md5 base user password ts).funcs[o]? = some (f, d') ∧ d = (respond md5 v f d' pc).1 := by
  unfold CallAt at *
  rw [authTurns_snoc] at h
  generalize authTurns md5 base user password ts = s at *
  cases t with
  | challenge c rnd =>
    have no : ∀ k v pc, AuthTurn.challenge c rnd = .go k → s.calls[k]? = some (v, pc) → pc.obj = some o → False := fun _ _ _ h => by cases h
    simp only [authTurn] at h
    split at h
    · exact .inl ⟨h, no⟩
    · rename_i d0 hd
      split at h
      · exact .inl ⟨h, no⟩
      · rename_i fd ha
        dsimp only at h
        rw [List.getElem?_append] at h
        split at h
        · exact .inl ⟨h, no⟩
        · rcases Nat.eq_zero_or_pos (o - s.funcs.length) with h0 | h0
          · rw [h0] at h
            simp only [List.getElem?_cons_zero, Option.some.injEq] at h
            subst h
            exact .inr (.inl ⟨c, rnd, d0, rfl, by omega, hd, ha⟩)
          · obtain ⟨m, hm⟩ := Nat.exists_eq_succ_of_ne_zero (Nat.pos_iff_ne_zero.1 h0)
            rw [hm] at h
            simp at h
  | call w => exact .inl ⟨h, fun _ _ _ h => by cases h⟩
  | go j =>
    simp only [authTurn] at h
    cases hj : s.calls[j]? with
    | none =>
      rw [hj] at h
      refine .inl ⟨h, fun k v pc hk hc _ => ?_⟩
      injection hk with hk
      subst hk
      rw [hj] at hc
      cases hc
    | some vp =>
      obtain ⟨w, pc⟩ := vp
      rw [hj] at h
      dsimp only at h
      have only : ∀ k v pc', AuthTurn.go j = .go k → s.calls[k]? = some (v, pc') → pc' = pc := by
        intro k v pc' hk hc
        injection hk with hk
        subst hk
        rw [hj] at hc
        injection hc with hc
        injection hc with _ hc
        exact hc.symm
      by_cases hst : pc = .start
      · rw [if_pos hst] at h
        refine .inl ⟨h, fun k v pc' hk hc hp => ?_⟩
        rw [only k v pc' hk hc, hst] at hp
        cases hp
      · rw [if_neg hst] at h
        cases ho : pc.obj with
        | none =>
          rw [ho] at h
          refine .inl ⟨h, fun k v pc' hk hc hp => ?_⟩
          rw [only k v pc' hk hc, ho] at hp
          cases hp
        | some o' =>
          rw [ho] at h
          dsimp only at h
          cases hf : s.funcs[o']? with
          | none =>
            rw [hf] at h
            refine .inl ⟨h, fun k v pc' hk hc hp => ?_⟩
            rw [only k v pc' hk hc, ho] at hp
            injection hp with hp
            subst hp
            dsimp only at h
            rw [hf] at h
            cases h
          | some fd =>
            obtain ⟨f', d'⟩ := fd
            rw [hf] at h
            dsimp only at h
            by_cases he : o = o'
            · subst he
              rw [List.getElem?_set_self (List.getElem?_eq_some_iff.1 hf).1] at h
              injection h with h
              injection h with h1 h2
              subst h1
              exact .inr (.inr ⟨j, w, pc, d', rfl, hj, ho, hf, h2.symm⟩)
            · rw [List.getElem?_set_ne (Ne.symm he)] at h
              refine .inl ⟨h, fun k v pc' hk hc hp => ?_⟩
              rw [only k v pc' hk hc, ho] at hp
              injection hp with hp
              exact he hp.symm

/-- The session key of challenge `c`, hashed `n` times. -/
def keyOf (md5 : Bytes → Bytes) (user password : Bytes) (c : Digest × Bytes) (n : Nat) : Bytes :=
  sessionKey (md5hex md5) user c.1.realm password c.1.nonce (clientNonce c.2) n

/-- An md5-sess challenge with a quality of protection. -/
def SessChallenge (c : Digest × Bytes) : Prop := c.1.basic = false ∧ c.1.algorithm = b!"md5-sess" ∧ c.1.qop ≠ []

structure SessInv (md5 : Bytes → Bytes) (base user password : Bytes) (ts : List AuthTurn) : Prop where
  obj : ∀ (o : Nat) c f d, (answered base ts)[o]? = some c → SessChallenge c → (authTurns md5 base user password ts).funcs[o]? = some (f, d) →
    ∃ n, d.ha1 = keyOf md5 user password c n ∧ ((∃ i verb, CallAt md5 base user password ts i verb (.rekeyed o)) → 1 ≤ n)
  keyed : ∀ i verb o v c, CallAt md5 base user password ts i verb (.keyed o v) → (answered base ts)[o]? = some c → SessChallenge c →
    ∃ n, v = keyOf md5 user password c n
  key : ∀ i verb o v c, CallAt md5 base user password ts i verb (.key o v) → (answered base ts)[o]? = some c → SessChallenge c →
    ∃ n, 1 ≤ n ∧ v = keyOf md5 user password c n
  law : ∀ i verb o a c, CallAt md5 base user password ts i verb (.done o a) → (answered base ts)[o]? = some c → SessChallenge c →
    ∃ p q n w, ts = p ++ .go i :: q ∧ 1 ≤ n ∧ CallAt md5 base user password p i verb (.key o (keyOf md5 user password c n)) ∧
      LatestHash md5 base user password p o w ∧ a = keyedAuthorization md5 c.2 c.1 user (keyOf md5 user password c n) w []

theorem answered_old {ts : List AuthTurn} {t : AuthTurn} {o : Nat} {c : Digest × Bytes} (hlt : o < (answered base ts).length)
    (h : (answered base (ts ++ [t]))[o]? = some c) : (answered base ts)[o]? = some c := by
  rw [answered_snoc, List.getElem?_append_left hlt] at h
  exact h

theorem text_keyed {d : Digest} {c : Digest × Bytes} {k v w : Bytes} (hq : c.1.qop ≠ [])
    (hr : Ready md5 c.2 c.1 user password k d) (h2 : d.ha2 = hashA2 (md5hex md5) c.1.qop w c.1.uri []) :
    authPrefix c.1 user ++ responseText md5 d v = keyedAuthorization md5 c.2 c.1 user v w [] := by
  unfold responseText keyedAuthorization
  obtain ⟨hnc, hcn⟩ := hr.nc hq
  rw [hr.qop, hr.nonce, h2, colonnade!_eq, colonnade!_eq, hnc, hcn, if_neg hq]
  unfold authorization authPrefix
  rw [if_neg hq]
  by_cases ho : c.1.opaque_ = [] <;> simp [ho, commaSpace, quotedParam]

theorem sessInv (ts : List AuthTurn) : SessInv md5 base user password ts := by
  refine snoc_induct (P := fun ts => SessInv md5 base user password ts) ?_ ?_ ts
  · have hc : ∀ i v pc, ¬ CallAt md5 base user password [] i v pc := by
      intro i v pc h; unfold CallAt at h; simp [authTurns] at h
    refine ⟨?_, ?_, ?_, ?_⟩
    · intro o c f d h; simp [answered] at h
    all_goals (intro i v o x c h; exact absurd h (hc _ _ _))
  · intro ts t ih
    have ia := authInv (md5 := md5) (base := base) (user := user) (password := password) ts
    have lt : ∀ i verb pc o, CallAt md5 base user password ts i verb pc → pc.of = some o → o < (answered base ts).length := by
      intro i verb pc o h ho
      obtain ⟨_, _, _, _, _, h⟩ := ia.own i verb pc o h ho
      exact h
    have lt' : ∀ i verb pc o, CallAt md5 base user password ts i verb pc → pc.obj = some o → o < (answered base ts).length := by
      intro i verb pc o h ho
      exact lt i verb pc o h (by cases pc <;> first | exact ho | cases ho)
    have flt : ∀ o fd, (authTurns md5 base user password ts).funcs[o]? = some fd → o < (answered base ts).length := by
      intro o fd h
      rw [← ia.len]
      exact (List.getElem?_eq_some_iff.1 h).1
    -- the digest of a challenge keeps its fixed part
    have fixed : ∀ (o : Nat) c f d, (answered base ts)[o]? = some c → SessChallenge c → (authTurns md5 base user password ts).funcs[o]? = some (f, d) →
        f = .digest (authPrefix c.1 user) ∧ ∃ k, Ready md5 c.2 c.1 user password k d := by
      intro o c f d h hs hf
      obtain ⟨f', d', h1, h2⟩ := ia.obj o c h
      rw [hf] at h1
      injection h1 with h1
      injection h1 with h3 h4
      subst h3; subst h4
      obtain ⟨k, hr, _⟩ := h2.ready hs.1
      exact ⟨h2.digest hs.1, k, hr⟩
    constructor
    · intro o c f d h hs hf
      rcases func_back hf with ⟨h1, hno⟩ | ⟨c', rnd, d0, rfl, rfl, hd, ha⟩ | ⟨k, v, pc, d', rfl, hk, ho, h1, rfl⟩
      · have h' := answered_old (flt o _ h1) h
        obtain ⟨n, h2, h3⟩ := ih.obj o c f d h' hs h1
        refine ⟨n, h2, ?_⟩
        rintro ⟨i, verb, hr⟩
        rcases call_back hr with hr | hr | hr | ⟨_, hr⟩ | ⟨pc, o', f', d', ht, hc, hpo, hff, hr⟩
        · exact h3 ⟨i, verb, hr⟩
        all_goals first | (cases hr; done) | skip
        have : o' = o := by
          cases pc <;> simp only [respond] at hr <;> first | (cases hpo; done) | skip
          · cases f' <;> cases hr
          · split at hr <;> cases hr
          · injection hr with hr; injection hpo with hpo; rw [← hpo, ← hr]
          · cases hr
          · cases f' <;> cases hr
        subst this
        exact absurd (hno i verb pc ht hc hpo) id
      · have hc : (answered base (ts ++ [.challenge c' rnd]))[(authTurns md5 base user password ts).funcs.length]? = some (d0, rnd) := by
          rw [answered_snoc, ia.len, List.getElem?_append_right (Nat.le_refl _)]
          simp [answered, hd, Except.toOption]
        rw [hc] at h
        injection h with h
        subst h
        obtain ⟨d', h1, h2⟩ := authenticate_digest md5 rnd user password d0 hs.1 (newDigest_init hd).2
        rw [h1] at ha
        injection ha with ha
        injection ha with _ ha
        subst ha
        refine ⟨0, h2.ha1, ?_⟩
        rintro ⟨i, verb, hr⟩
        rcases call_back hr with hr | hr | hr | ⟨_, hr⟩ | ⟨pc, o', f', d', ht, _⟩
        · have := lt i verb _ _ hr rfl
          rw [ia.len] at this
          exact absurd this (Nat.lt_irrefl _)
        all_goals first | (cases hr; done) | cases ht
      · have h' := answered_old (flt o _ h1) h
        obtain ⟨n, h2, h3⟩ := ih.obj o c f d' h' hs h1
        obtain ⟨hf', kk, hr⟩ := fixed o c f d' h' hs h1
        -- another call that has just written the key is not this one, unless this one writes it now
        have back : pc ≠ .keyed o (match pc with | .keyed _ x => x | _ => []) →
            (∃ i verb, CallAt md5 base user password (ts ++ [.go k]) i verb (.rekeyed o)) → 1 ≤ n := by
          rintro hne ⟨i, verb, hr⟩
          rcases call_back hr with hr | hr | hr | ⟨_, hr⟩ | ⟨pc', o', f', d2, ht, hc, hpo, hff, hr⟩
          · exact h3 ⟨i, verb, hr⟩
          all_goals first | (cases hr; done) | skip
          injection ht with ht
          subst ht
          have : pc' = pc := by
            unfold CallAt at hc hk
            rw [hk] at hc
            injection hc with hc
            injection hc with _ hc
            exact hc.symm
          subst this
          cases pc' <;> simp only [respond] at hr <;> first | (cases hpo; done) | skip
          · cases f' <;> cases hr
          · split at hr <;> cases hr
          · injection ho with ho; subst ho; exact absurd rfl hne
          · cases hr
          · cases f' <;> cases hr
        cases pc <;> simp only [respond] <;> first | (cases ho; done) | skip
        · refine ⟨n, ?_, back (by simp)⟩
          rw [hf']; exact h2
        · refine ⟨n, ?_, back (by simp)⟩
          split <;> exact h2
        · rename_i o2 x
          injection ho with ho
          subst ho
          obtain ⟨m, hm⟩ := ih.keyed k v _ x c hk h' hs
          refine ⟨m + 1, ?_, fun _ => Nat.succ_pos m⟩
          obtain ⟨_, hcn⟩ := hr.nc hs.2.2
          rw [colonnade!_eq, hm, hr.nonce, hcn]
          rfl
        · exact ⟨n, h2, back (by simp)⟩
        · refine ⟨n, ?_, back (by simp)⟩
          rw [hf']; exact h2
    · intro i verb o x c h hc hs
      rcases call_back h with h | h | h | ⟨_, h⟩ | ⟨pc, o', f, d, rfl, h, ho, hf, hr⟩
      · exact ih.keyed i verb o x c h (answered_old (lt _ _ _ _ h rfl) hc) hs
      all_goals first | (cases h; done) | skip
      cases pc <;> simp only [respond] at hr <;> first | (cases ho; done) | skip
      · cases f <;> cases hr
      · split at hr
        · injection hr with hr1 hr2
          injection ho with ho
          subst ho; subst hr1
          obtain ⟨n, h2, _⟩ := ih.obj _ c f d (answered_old (flt _ _ hf) hc) hs hf
          exact ⟨n, by rw [hr2, h2]⟩
        · cases hr
      · cases hr
      · cases hr
      · cases f <;> cases hr
    · intro i verb o x c h hc hs
      rcases call_back h with h | h | h | ⟨_, h⟩ | ⟨pc, o', f, d, rfl, h, ho, hf, hr⟩
      · exact ih.key i verb o x c h (answered_old (lt _ _ _ _ h rfl) hc) hs
      all_goals first | (cases h; done) | skip
      cases pc <;> simp only [respond] at hr <;> first | (cases ho; done) | skip
      · cases f <;> cases hr
      · rename_i o2
        split at hr
        · cases hr
        · rename_i hq
          injection hr with hr1 hr2
          injection ho with ho
          subst ho; subst hr1
          obtain ⟨_, kk, hrd⟩ := fixed _ c f d (answered_old (flt _ _ hf) hc) hs hf
          exact absurd ⟨by rw [hrd.qop]; exact hs.2.2, by rw [hrd.algorithm]; exact hs.2.1⟩ hq
      · cases hr
      · injection hr with hr1 hr2
        injection ho with ho
        subst ho; subst hr1
        obtain ⟨n, h2, h3⟩ := ih.obj _ c f d (answered_old (flt _ _ hf) hc) hs hf
        exact ⟨n, h3 ⟨i, verb, h⟩, by rw [hr2, h2]⟩
      · cases f <;> cases hr
    · intro i verb o a c h hc hs
      rcases call_back h with h | h | h | ⟨_, h⟩ | ⟨pc, o', f, d, rfl, hcall, ho, hf, hr⟩
      · obtain ⟨p, q, n, w, rfl, h1, h2, h3, h4⟩ := ih.law i verb o a c h (answered_old (lt _ _ _ _ h rfl) hc) hs
        exact ⟨p, q ++ [t], n, w, by simp, h1, h2, h3, h4⟩
      all_goals first | (cases h; done) | skip
      have hoo : o' = o := by
        cases pc <;> simp only [respond] at hr <;> first | (cases ho; done) | skip
        · cases f
          · injection hr with hr; injection ho with ho; rw [← ho, ← hr]
          · cases hr
        · split at hr <;> cases hr
        · cases hr
        · cases hr
        · cases f <;> (injection hr with hr; injection ho with ho; rw [← ho, ← hr])
      subst hoo
      have hc' := answered_old (flt _ _ hf) hc
      obtain ⟨hf', kk, hrd⟩ := fixed _ c f d hc' hs hf
      subst hf'
      cases pc <;> simp only [respond] at hr <;> first | (cases ho; done) | skip
      · cases hr
      · split at hr <;> cases hr
      · cases hr
      · cases hr
      · rename_i o2 x
        injection ho with ho
        subst ho
        injection hr with _ hr
        obtain ⟨n, h1, h2⟩ := ih.key i verb _ x c hcall hc' hs
        obtain ⟨_, w, hw⟩ := ia.inside i verb _ _ c hcall rfl hc'
        obtain ⟨f', d', g1, g2⟩ := ia.obj _ c hc'
        rw [hf] at g1
        injection g1 with g1
        injection g1 with _ g1
        subst g1
        subst h2
        exact ⟨ts, [], n, w, rfl, h1, hcall, hw, by rw [hr]; exact text_keyed hs.2.2 hrd (g2.hash hs.1 w hw)⟩
end ConcurrentSess

/-- **C147**, law for md5-sess. For every hash function, credentials and schedule: a finished request made for an md5-sess challenge with qop carries the
value of RFC 2617 with the verb of the call that was the latest to hash its verb, and with a session key that was hashed once or more. -/
theorem C147_sess_law_partial (md5 : Bytes → Bytes) (base user password : Bytes) (ts : List AuthTurn) (i : Nat) (verb : Bytes) (o : Nat) (a : Bytes)
    (c : Digest × Bytes) (h : CallAt md5 base user password ts i verb (.done o a)) (hc : (answered base ts)[o]? = some c)
    (hb : c.1.basic = false) (hs : c.1.algorithm = b!"md5-sess") (hq : c.1.qop ≠ []) :
    ∃ p q n w, ts = p ++ .go i :: q ∧ 1 ≤ n ∧
      CallAt md5 base user password p i verb (.key o (sessionKey (md5hex md5) user c.1.realm password c.1.nonce (clientNonce c.2) n)) ∧
      LatestHash md5 base user password p o w ∧
      a = keyedAuthorization md5 c.2 c.1 user (sessionKey (md5hex md5) user c.1.realm password c.1.nonce (clientNonce c.2) n) w [] :=
  (sessInv ts).law i verb o a c h hc ⟨hb, hs, hq⟩

/-- Two calls for one md5-sess challenge: both read the key before either writes it, so both hash it once, and the first reads the verb of the second. -/
def crossedSess : List AuthTurn :=
  [.challenge b!"Digest realm=\"r\", nonce=\"n\", qop=auth, algorithm=md5-sess" [], .call b!"OPTIONS", .call b!"PLAY", .go 0, .go 1, .go 0, .go 1,
    .go 0, .go 1, .go 0, .go 1, .go 0, .go 0]

example : ∃ a d0, CallAt id b!"/a" b!"u" b!"p" crossedSess 0 b!"OPTIONS" (.done 0 a) ∧ (answered b!"/a" crossedSess)[0]? = some (d0, []) ∧
    d0.basic = false ∧ d0.algorithm = b!"md5-sess" ∧ d0.qop ≠ [] ∧
    a = keyedAuthorization id [] d0 b!"u" (sessionKey (md5hex id) b!"u" d0.realm b!"p" d0.nonce (clientNonce []) 1) b!"PLAY" [] :=
  ⟨_, { uri := b!"/a", realm := b!"r", nonce := b!"n", qop := b!"auth", algorithm := b!"md5-sess" }, rfl, by decide +kernel⟩

end Ouro
