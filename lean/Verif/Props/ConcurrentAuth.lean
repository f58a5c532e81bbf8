import Verif.Props.Digest
import Verif.Props.Concurrent
import Verif.Spec.ConcurrentAuth
/-! # Requests authorized at the same time: C147 -/
namespace Ouro
open Spec

theorem colonnade!_eq (p : Bytes) (ps : List Bytes) : colonnade! p ps = colons p ps := by
  unfold colonnade!; rw [colonnade_ok]; rfl

theorem newHa2_eq (md5 : Bytes → Bytes) (d : Digest) (verb : Bytes) : newHa2 md5 d verb = hashA2 (md5hex md5) d.qop verb d.uri [] := by
  unfold newHa2 hashA2
  split <;> rw [colonnade!_eq]

/-! ## A call that runs alone does what the model of one goroutine says -/

/-- The call goes on alone, `n` steps. -/
def respondN (md5 : Bytes → Bytes) (verb : Bytes) (f : AuthFunc) : Nat → Digest × AuthPc → Digest × AuthPc
  | 0, x => x
  | n + 1, x => respondN md5 verb f n (respond md5 verb f x.1 x.2)

/-- A call that runs alone, from its start to its end, returns the value, and leaves the digest, that `authCall` does. -/
theorem respond_alone (md5 : Bytes → Bytes) (verb : Bytes) (f : AuthFunc) (d : Digest) (o : Nat) :
    ∃ n a d', authCall md5 f d verb [] = .ok (a, d') ∧ respondN md5 verb f n (d, .bound o) = (d', .done o a) := by
  cases f with
  | basic a => exact ⟨1, a, d, rfl, rfl⟩
  | digest a =>
    have e1 : (if d.qop = b!"auth-int" then colonnade verb [d.uri, md5hex md5 []] else colonnade verb [d.uri] : Go Bytes) =
        .ok (if d.qop = b!"auth-int" then colonnade! verb [d.uri, md5hex md5 []] else colonnade! verb [d.uri]) := by
      split <;> rw [colonnade!_eq, colonnade_ok]
    have e2 : md5hex md5 (if d.qop = b!"auth-int" then colonnade! verb [d.uri, md5hex md5 []] else colonnade! verb [d.uri]) = newHa2 md5 d verb := by
      unfold newHa2; split <;> rfl
    unfold authCall
    dsimp only
    unfold digestResponse
    rw [e1, go_ok_bind, e2]
    dsimp only
    by_cases hq : d.qop = []
    · refine ⟨3, a ++ responseText md5 { d with ha2 := newHa2 md5 d verb } d.ha1, { d with ha2 := newHa2 md5 d verb }, ?_, ?_⟩
      · rw [if_pos hq, colonnade_ok, go_ok_bind, go_pure, go_ok_bind, go_pure]
        unfold responseText
        rw [if_pos (show ({ d with ha2 := newHa2 md5 d verb } : Digest).qop = [] from hq), colonnade!_eq]
      · simp only [respondN, respond, hq, ne_eq, not_true_eq_false, false_and, if_false]
    · by_cases hs : d.algorithm = b!"md5-sess"
      · refine ⟨5, a ++ responseText md5 { d with ha2 := newHa2 md5 d verb, ha1 := md5hex md5 (colonnade! d.ha1 [d.nonce, d.cnonce]) }
          (md5hex md5 (colonnade! d.ha1 [d.nonce, d.cnonce])),
          { d with ha2 := newHa2 md5 d verb, ha1 := md5hex md5 (colonnade! d.ha1 [d.nonce, d.cnonce]) }, ?_, ?_⟩
        · rw [if_neg hq, if_pos hs, colonnade_ok, go_ok_bind, go_pure, go_ok_bind, colonnade_ok, go_ok_bind, go_pure, go_ok_bind, go_pure]
          unfold responseText
          rw [if_neg (show ¬ ({ d with ha2 := newHa2 md5 d verb, ha1 := md5hex md5 (colonnade! d.ha1 [d.nonce, d.cnonce]) } : Digest).qop = [] from hq)]
          simp only [colonnade!_eq]
        · simp only [respondN, respond, hq, hs, ne_eq, not_false_eq_true, and_self, if_true]
      · refine ⟨3, a ++ responseText md5 { d with ha2 := newHa2 md5 d verb } d.ha1, { d with ha2 := newHa2 md5 d verb }, ?_, ?_⟩
        · rw [if_neg hq, if_neg hs, go_pure, go_ok_bind, colonnade_ok, go_ok_bind, go_pure, go_ok_bind, go_pure]
          unfold responseText
          rw [if_neg (show ¬ ({ d with ha2 := newHa2 md5 d verb } : Digest).qop = [] from hq), colonnade!_eq]
        · simp only [respondN, respond, hs, and_false, if_false]

/-! ## Schedules -/

section
variable {md5 : Bytes → Bytes} {base user password : Bytes}

theorem authTurns_snoc (ts : List AuthTurn) (t : AuthTurn) :
    authTurns md5 base user password (ts ++ [t]) = authTurn md5 base user password (authTurns md5 base user password ts) t := by
  unfold authTurns; rw [List.foldl_append]; rfl

theorem latest_snoc (ts : List AuthTurn) (t : AuthTurn) (o : Nat) (w : Bytes) :
    LatestHash md5 base user password (ts ++ [t]) o w ↔
      (∃ j, t = .go j ∧ CallAt md5 base user password ts j w (.bound o)) ∨
      ((∀ j w', t = .go j → ¬ CallAt md5 base user password ts j w' (.bound o)) ∧ LatestHash md5 base user password ts o w) := by
  constructor
  · rintro ⟨p, j, q, he, hc, hn⟩
    rcases List.eq_nil_or_concat q with rfl | ⟨q0, x, rfl⟩
    · obtain ⟨rfl, h2⟩ := List.append_inj' he rfl
      injection h2 with h2 _
      exact .inl ⟨j, h2, hc⟩
    · rw [List.concat_eq_append] at *
      rw [← List.cons_append, ← List.append_assoc] at he
      obtain ⟨rfl, h2⟩ := List.append_inj' he rfl
      injection h2 with h2 _
      subst h2
      refine .inr ⟨?_, p, j, q0, rfl, hc, ?_⟩
      · rintro j' w' rfl
        exact hn q0 j' [] rfl w'
      · rintro p' j' q' rfl w'
        exact hn p' j' (q' ++ [t]) (by simp) w'
  · rintro (⟨j, rfl, hc⟩ | ⟨hn, p, j, q, rfl, hc, hq⟩)
    · exact ⟨ts, j, [], rfl, hc, fun p' j' q' h => by simp at h⟩
    · refine ⟨p, j, q ++ [t], by simp, hc, ?_⟩
      intro p' j' q' he w'
      rcases List.eq_nil_or_concat q' with rfl | ⟨q0, x, rfl⟩
      · obtain ⟨rfl, h2⟩ := List.append_inj' he rfl
        injection h2 with h2 _
        exact hn j' w' h2
      · rw [List.concat_eq_append, ← List.cons_append, ← List.append_assoc] at he
        obtain ⟨rfl, h2⟩ := List.append_inj' he rfl
        exact hq p' j' q0 rfl w'

theorem answered_snoc (ts : List AuthTurn) (t : AuthTurn) : answered base (ts ++ [t]) = answered base ts ++ answered base [t] := by
  unfold answered; rw [List.filterMap_append]

/-- What a challenge's function and digest are after a schedule. -/
structure ObjKept (md5 : Bytes → Bytes) (base user password : Bytes) (ts : List AuthTurn) (o : Nat) (c : Digest × Bytes) (f : AuthFunc) (d : Digest) : Prop where
  basic : c.1.basic = true → f = .basic (b!"Basic " ++ b64Encode (user ++ b!":" ++ password))
  digest : c.1.basic = false → f = .digest (authPrefix c.1 user)
  ready : c.1.basic = false → ∃ h, Ready md5 c.2 c.1 user password h d ∧
    (c.1.algorithm ≠ b!"md5-sess" → h = md5hex md5 (colons user [c.1.realm, password]))
  hash : c.1.basic = false → ∀ w, LatestHash md5 base user password ts o w → d.ha2 = hashA2 (md5hex md5) c.1.qop w c.1.uri []

/-- What a call carries when it is done. -/
def Law (md5 : Bytes → Bytes) (base user password : Bytes) (ts : List AuthTurn) (c : Digest × Bytes) (i : Nat) (verb : Bytes) (o : Nat) (a : Bytes) : Prop :=
  (c.1.basic = true → a = carries md5 user password c verb) ∧
  (c.1.basic = false → ∃ p q x w, ts = p ++ .go i :: q ∧ CallAt md5 base user password p i verb (.key o x) ∧
    LatestHash md5 base user password p o w ∧ (c.1.algorithm ≠ b!"md5-sess" → a = carries md5 user password c w))

/-- The challenge a call is or was bound to. -/
def AuthPc.of : AuthPc → Option Nat
  | .done o _ => some o
  | pc => pc.obj

structure AuthInv (md5 : Bytes → Bytes) (base user password : Bytes) (ts : List AuthTurn) : Prop where
  len : (authTurns md5 base user password ts).funcs.length = (answered base ts).length
  obj : ∀ (o : Nat) c, (answered base ts)[o]? = some c →
    ∃ f d, (authTurns md5 base user password ts).funcs[o]? = some (f, d) ∧ ObjKept md5 base user password ts o c f d
  own : ∀ i verb pc o, CallAt md5 base user password ts i verb pc → pc.of = some o →
    ∃ p q, ts = p ++ .go i :: q ∧ CallAt md5 base user password p i verb .start ∧ (answered base p).length = o + 1 ∧ o < (answered base ts).length
  inside : ∀ i verb pc o c, CallAt md5 base user password ts i verb pc → Hashing o pc → (answered base ts)[o]? = some c →
    c.1.basic = false ∧ ∃ w, LatestHash md5 base user password ts o w
  key : ∀ i verb o x c, CallAt md5 base user password ts i verb (.key o x) → (answered base ts)[o]? = some c → c.1.algorithm ≠ b!"md5-sess" →
    x = md5hex md5 (colons user [c.1.realm, password])
  keyed : ∀ i verb o x c, CallAt md5 base user password ts i verb (.keyed o x) → (answered base ts)[o]? = some c → c.1.algorithm = b!"md5-sess"
  latest : ∀ o w, LatestHash md5 base user password ts o w → o < (answered base ts).length
  law : ∀ i verb o a c, CallAt md5 base user password ts i verb (.done o a) → (answered base ts)[o]? = some c → Law md5 base user password ts c i verb o a

theorem law_snoc {ts : List AuthTurn} {c : Digest × Bytes} {i : Nat} {verb : Bytes} {o : Nat} {a : Bytes} (t : AuthTurn)
    (h : Law md5 base user password ts c i verb o a) : Law md5 base user password (ts ++ [t]) c i verb o a := by
  refine ⟨h.1, fun hb => ?_⟩
  obtain ⟨p, q, x, w, rfl, h1, h2, h3⟩ := h.2 hb
  exact ⟨p, q ++ [t], x, w, by simp, h1, h2, h3⟩

theorem answered_lt {ts : List AuthTurn} {o : Nat} {c : Digest × Bytes} (t : AuthTurn) (h : (answered base ts)[o]? = some c) :
    (answered base (ts ++ [t]))[o]? = some c := by
  rw [answered_snoc, List.getElem?_append_left (List.getElem?_eq_some_iff.1 h).1]
  exact h

/-- A step that changes no state and hashes nothing. -/
theorem inv_idle {ts : List AuthTurn} {t : AuthTurn} (ih : AuthInv md5 base user password ts)
    (hs : authTurns md5 base user password (ts ++ [t]) = authTurns md5 base user password ts) (ha : answered base [t] = [])
    (hl : ∀ o w, LatestHash md5 base user password (ts ++ [t]) o w ↔ LatestHash md5 base user password ts o w) :
    AuthInv md5 base user password (ts ++ [t]) := by
  have hc : ∀ i verb pc, CallAt md5 base user password (ts ++ [t]) i verb pc ↔ CallAt md5 base user password ts i verb pc := by
    intro i verb pc; unfold CallAt; rw [hs]
  have hans : answered base (ts ++ [t]) = answered base ts := by rw [answered_snoc, ha, List.append_nil]
  constructor
  · rw [hs, hans]; exact ih.len
  · intro o c h
    rw [hans] at h
    obtain ⟨f, d, h1, h2⟩ := ih.obj o c h
    refine ⟨f, d, by rw [hs]; exact h1, h2.basic, h2.digest, h2.ready, fun hb w hw => h2.hash hb w ((hl o w).1 hw)⟩
  · intro i verb pc o h ho
    obtain ⟨p, q, rfl, h1, h2, h3⟩ := ih.own i verb pc o ((hc _ _ _).1 h) ho
    exact ⟨p, q ++ [t], by simp, h1, h2, by rw [hans]; exact h3⟩
  · intro i verb pc o c h hh h'
    rw [hans] at h'
    obtain ⟨h1, w, h2⟩ := ih.inside i verb pc o c ((hc _ _ _).1 h) hh h'
    exact ⟨h1, w, (hl o w).2 h2⟩
  · intro i verb o x c h h'
    rw [hans] at h'
    exact ih.key i verb o x c ((hc _ _ _).1 h) h'
  · intro i verb o x c h h'
    rw [hans] at h'
    exact ih.keyed i verb o x c ((hc _ _ _).1 h) h'
  · intro o w h
    rw [hans]
    exact ih.latest o w ((hl o w).1 h)
  · intro i verb o a c h h'
    rw [hans] at h'
    exact law_snoc t (ih.law i verb o a c ((hc _ _ _).1 h) h')

theorem latest_other {ts : List AuthTurn} {t : AuthTurn} (h : ∀ j, t ≠ .go j) (o : Nat) (w : Bytes) :
    LatestHash md5 base user password (ts ++ [t]) o w ↔ LatestHash md5 base user password ts o w := by
  rw [latest_snoc]
  constructor
  · rintro (⟨j, hj, _⟩ | ⟨_, h2⟩)
    · exact absurd hj (h j)
    · exact h2
  · exact fun h2 => .inr ⟨fun j _ hj => absurd hj (h j), h2⟩

theorem latest_unbound {ts : List AuthTurn} {i : Nat} (h : ∀ w o, ¬ CallAt md5 base user password ts i w (.bound o)) (o : Nat) (w : Bytes) :
    LatestHash md5 base user password (ts ++ [.go i]) o w ↔ LatestHash md5 base user password ts o w := by
  rw [latest_snoc]
  constructor
  · rintro (⟨j, hj, h1⟩ | ⟨_, h2⟩)
    · injection hj with hj; subst hj; exact absurd h1 (h w o)
    · exact h2
  · refine fun h2 => .inr ⟨fun j w' hj => ?_, h2⟩
    injection hj with hj; subst hj; exact h w' o

theorem authenticate_kept (rnd : Bytes) (d0 : Digest) (c : Bytes) (h : newDigest base c = .ok d0) :
    ∃ f d, authenticate md5 rnd d0 user password = .ok (f, d) ∧
      (d0.basic = true → f = .basic (b!"Basic " ++ b64Encode (user ++ b!":" ++ password))) ∧
      (d0.basic = false → f = .digest (authPrefix d0 user) ∧ Ready md5 rnd d0 user password (md5hex md5 (colons user [d0.realm, password])) d) := by
  cases hb : d0.basic with
  | true =>
    refine ⟨_, d0, ?_, fun _ => rfl, fun h => by (cases h)⟩
    unfold authenticate
    rw [if_pos hb, colonnade_ok, go_ok_bind, go_pure]
    simp [colons]
  | false =>
    obtain ⟨d, h1, h2⟩ := authenticate_digest md5 rnd user password d0 hb (newDigest_init h).2
    exact ⟨_, d, h1, fun h => by (cases h), fun _ => ⟨rfl, h2⟩⟩

theorem inv_challenge {ts : List AuthTurn} (ih : AuthInv md5 base user password ts) (c rnd : Bytes) :
    AuthInv md5 base user password (ts ++ [.challenge c rnd]) := by
  have hl := latest_other (md5 := md5) (base := base) (user := user) (password := password) (ts := ts) (t := .challenge c rnd) (fun j h => by cases h)
  cases hd : newDigest base c with
  | error e =>
    refine inv_idle ih ?_ ?_ hl
    · rw [authTurns_snoc]; simp only [authTurn, hd]
    · simp [answered, hd, Except.toOption]
  | ok d0 =>
    obtain ⟨f, d, h1, h2, h3⟩ := authenticate_kept (md5 := md5) (user := user) (password := password) rnd d0 c hd
    have hs : authTurns md5 base user password (ts ++ [.challenge c rnd]) =
        { authTurns md5 base user password ts with funcs := (authTurns md5 base user password ts).funcs ++ [(f, d)] } := by
      rw [authTurns_snoc]; simp only [authTurn, hd, h1]
    have ha : answered base (ts ++ [.challenge c rnd]) = answered base ts ++ [(d0, rnd)] := by
      rw [answered_snoc]; simp [answered, hd, Except.toOption]
    have hc : ∀ i verb pc, CallAt md5 base user password (ts ++ [.challenge c rnd]) i verb pc ↔ CallAt md5 base user password ts i verb pc := by
      intro i verb pc; unfold CallAt; rw [hs]
    have old : ∀ (o : Nat) cc, o < (answered base ts).length → (answered base (ts ++ [.challenge c rnd]))[o]? = some cc →
        (answered base ts)[o]? = some cc := by
      intro o cc hlt h
      rw [ha, List.getElem?_append_left hlt] at h
      exact h
    have lt : ∀ i verb pc o, CallAt md5 base user password ts i verb pc → pc.of = some o → o < (answered base ts).length := by
      intro i verb pc o h ho
      obtain ⟨_, _, _, _, _, h⟩ := ih.own i verb pc o h ho
      exact h
    constructor
    · rw [hs, ha]; simp [ih.len]
    · intro o cc h
      by_cases hlt : o < (answered base ts).length
      · obtain ⟨f', d', h4, h5⟩ := ih.obj o cc (old o cc hlt h)
        refine ⟨f', d', ?_, h5.basic, h5.digest, h5.ready, fun hb w hw => h5.hash hb w ((hl o w).1 hw)⟩
        rw [hs]
        dsimp only
        rw [List.getElem?_append_left (by rw [ih.len]; exact hlt)]
        exact h4
      · have ho : o = (answered base ts).length := by
          have := (List.getElem?_eq_some_iff.1 h).1
          rw [ha] at this
          simp only [List.length_append, List.length_cons, List.length_nil] at this
          omega
        subst ho
        rw [ha, List.getElem?_append_right (Nat.le_refl _)] at h
        simp only [Nat.sub_self, List.getElem?_cons_zero, Option.some.injEq] at h
        subst h
        refine ⟨f, d, ?_, h2, fun hb => (h3 hb).1, fun hb => ⟨_, (h3 hb).2, fun _ => rfl⟩, fun hb w hw => ?_⟩
        · rw [hs]
          dsimp only
          rw [List.getElem?_append_right (by rw [ih.len]; exact Nat.le_refl _), ih.len]
          simp
        · exact absurd (ih.latest _ w ((hl _ w).1 hw)) (Nat.lt_irrefl _)
    · intro i verb pc o h ho
      obtain ⟨p, q, h1, h2, h3, h4⟩ := ih.own i verb pc o ((hc _ _ _).1 h) ho
      refine ⟨p, q ++ [.challenge c rnd], by rw [h1]; simp, h2, h3, ?_⟩
      rw [ha, List.length_append]
      exact Nat.lt_of_lt_of_le h4 (Nat.le_add_right _ _)
    · intro i verb pc o cc h hh h'
      have hlt := lt i verb pc o ((hc _ _ _).1 h) (by cases pc <;> simp_all [Hashing, AuthPc.of, AuthPc.obj])
      obtain ⟨h1, w, h2⟩ := ih.inside i verb pc o cc ((hc _ _ _).1 h) hh (old o cc hlt h')
      exact ⟨h1, w, (hl o w).2 h2⟩
    · intro i verb o x cc h h'
      exact ih.key i verb o x cc ((hc _ _ _).1 h) (old o cc (lt i verb _ o ((hc _ _ _).1 h) rfl) h')
    · intro i verb o x cc h h'
      exact ih.keyed i verb o x cc ((hc _ _ _).1 h) (old o cc (lt i verb _ o ((hc _ _ _).1 h) rfl) h')
    · intro o w h
      rw [ha, List.length_append]
      exact Nat.lt_of_lt_of_le (ih.latest o w ((hl o w).1 h)) (Nat.le_add_right _ _)
    · intro i verb o a cc h h'
      exact law_snoc _ (ih.law i verb o a cc ((hc _ _ _).1 h) (old o cc (lt i verb _ o ((hc _ _ _).1 h) rfl) h'))

theorem inv_call {ts : List AuthTurn} (ih : AuthInv md5 base user password ts) (verb : Bytes) :
    AuthInv md5 base user password (ts ++ [.call verb]) := by
  have hl := latest_other (md5 := md5) (base := base) (user := user) (password := password) (ts := ts) (t := .call verb) (fun j h => by cases h)
  have hs : authTurns md5 base user password (ts ++ [.call verb]) =
      { authTurns md5 base user password ts with calls := (authTurns md5 base user password ts).calls ++ [(verb, .start)] } := by
    rw [authTurns_snoc]; rfl
  have hans : answered base (ts ++ [.call verb]) = answered base ts := by rw [answered_snoc]; simp [answered]
  have hc : ∀ i v pc, CallAt md5 base user password (ts ++ [.call verb]) i v pc → CallAt md5 base user password ts i v pc ∨ pc = .start := by
    intro i v pc h
    unfold CallAt at h
    rw [hs] at h
    dsimp only at h
    by_cases hi : i < (authTurns md5 base user password ts).calls.length
    · rw [List.getElem?_append_left hi] at h
      exact .inl h
    · rw [List.getElem?_append_right (by omega)] at h
      obtain ⟨hk, h⟩ := List.getElem?_eq_some_iff.1 h
      simp only [List.getElem_singleton, Prod.mk.injEq] at h
      exact .inr h.2.symm
  constructor
  · rw [hs, hans]; exact ih.len
  · intro o c h
    rw [hans] at h
    obtain ⟨f, d, h1, h2⟩ := ih.obj o c h
    refine ⟨f, d, by rw [hs]; exact h1, h2.basic, h2.digest, h2.ready, fun hb w hw => h2.hash hb w ((hl o w).1 hw)⟩
  · intro i v pc o h ho
    rcases hc i v pc h with h | rfl
    · obtain ⟨p, q, h1, h2, h3, h4⟩ := ih.own i v pc o h ho
      exact ⟨p, q ++ [.call verb], by rw [h1]; simp, h2, h3, by rw [hans]; exact h4⟩
    · cases ho
  · intro i v pc o c h hh h'
    rw [hans] at h'
    rcases hc i v pc h with h | rfl
    · obtain ⟨h1, w, h2⟩ := ih.inside i v pc o c h hh h'
      exact ⟨h1, w, (hl o w).2 h2⟩
    · cases hh
  · intro i v o x c h h'
    rw [hans] at h'
    rcases hc i v _ h with h | h
    · exact ih.key i v o x c h h'
    · cases h
  · intro i v o x c h h'
    rw [hans] at h'
    rcases hc i v _ h with h | h
    · exact ih.keyed i v o x c h h'
    · cases h
  · intro o w h
    rw [hans]
    exact ih.latest o w ((hl o w).1 h)
  · intro i v o a c h h'
    rw [hans] at h'
    rcases hc i v _ h with h | h
    · exact law_snoc _ (ih.law i v o a c h h')
    · cases h

/-- What RFC 2617 asks for, with what the digest holds. -/
theorem text_carries {d : Digest} {c : Digest × Bytes} {v w : Bytes} (hb : c.1.basic = false) (hs : c.1.algorithm ≠ b!"md5-sess")
    (hr : Ready md5 c.2 c.1 user password v d) (hv : v = md5hex md5 (colons user [c.1.realm, password]))
    (h2 : d.ha2 = hashA2 (md5hex md5) c.1.qop w c.1.uri []) :
    authPrefix c.1 user ++ responseText md5 d v = carries md5 user password c w := by
  have hH : (fun b => hexEncode (md5 b)) = md5hex md5 := rfl
  unfold carries responseText
  rw [hH, if_neg (show ¬ c.1.basic = true by rw [hb]; exact Bool.false_ne_true)]
  unfold requestDigest hashA1
  rw [hr.qop, hr.nonce, h2, colonnade!_eq, colonnade!_eq, hv]
  by_cases hq : c.1.qop = []
  · simp only [hq, if_true, hs, decide_false, Bool.false_eq_true, if_false]
    unfold authorization authPrefix
    by_cases ho : c.1.opaque_ = [] <;> simp [ho, commaSpace, quotedParam]
  · obtain ⟨hnc, hcn⟩ := hr.nc hq
    rw [hnc, hcn]
    simp only [hq, hs, if_false, decide_false, Bool.false_eq_true]
    unfold authorization authPrefix nonceOf clientNonce
    rw [if_neg hq]
    by_cases ho : c.1.opaque_ = [] <;> simp [ho, commaSpace, quotedParam]

theorem inv_go {ts : List AuthTurn} (ih : AuthInv md5 base user password ts) (i : Nat) :
    AuthInv md5 base user password (ts ++ [.go i]) := by
  have ha : answered base [AuthTurn.go i] = [] := rfl
  have hans : answered base (ts ++ [.go i]) = answered base ts := by rw [answered_snoc, ha, List.append_nil]
  cases hci : (authTurns md5 base user password ts).calls[i]? with
  | none =>
    refine inv_idle ih ?_ ha (latest_unbound fun w o h => ?_)
    · rw [authTurns_snoc]; simp only [authTurn, hci]
    · unfold CallAt at h; rw [hci] at h; cases h
  | some vp =>
    obtain ⟨verb, pc⟩ := vp
    have hat : ∀ v p, CallAt md5 base user password ts i v p → v = verb ∧ p = pc := by
      intro v p h
      unfold CallAt at h
      rw [hci] at h
      injection h with h
      injection h with h h'
      exact ⟨h.symm, h'.symm⟩
    have hset : ∀ pc' fs, authTurns md5 base user password (ts ++ [.go i]) =
        { funcs := fs, calls := (authTurns md5 base user password ts).calls.set i (verb, pc') } →
        ∀ k v p, CallAt md5 base user password (ts ++ [.go i]) k v p → (k ≠ i ∧ CallAt md5 base user password ts k v p) ∨ (k = i ∧ v = verb ∧ p = pc') := by
      intro pc' fs hs k v p h
      unfold CallAt at h
      rw [hs] at h
      dsimp only at h
      by_cases hk : k = i
      · subst hk
        rw [List.getElem?_set_self (List.getElem?_eq_some_iff.1 hci).1] at h
        injection h with h
        injection h with h h'
        exact .inr ⟨rfl, h.symm, h'.symm⟩
      · rw [List.getElem?_set_ne (Ne.symm hk)] at h
        exact .inl ⟨hk, h⟩
    by_cases hst : pc = .start
    · subst hst
      have hs : authTurns md5 base user password (ts ++ [.go i]) = AuthShared.mk (authTurns md5 base user password ts).funcs
          ((authTurns md5 base user password ts).calls.set i (verb, if (authTurns md5 base user password ts).funcs = [] then AuthPc.bare
            else .bound ((authTurns md5 base user password ts).funcs.length - 1))) := by
        rw [authTurns_snoc]; simp only [authTurn, hci, if_true]
      have hc := hset _ _ hs
      have hl := latest_unbound (md5 := md5) (base := base) (user := user) (password := password) (ts := ts) (i := i)
        (fun w o h => by have := (hat _ _ h).2; cases this)
      have new : ∀ pc', pc' = (if (authTurns md5 base user password ts).funcs = [] then AuthPc.bare
            else .bound ((authTurns md5 base user password ts).funcs.length - 1)) →
          pc' = .bare ∨ ((authTurns md5 base user password ts).funcs ≠ [] ∧ pc' = .bound ((authTurns md5 base user password ts).funcs.length - 1)) := by
        intro pc' h
        split at h
        · exact .inl h
        · exact .inr ⟨by assumption, h⟩
      constructor
      · rw [hs, hans]; exact ih.len
      · intro o c h
        rw [hans] at h
        obtain ⟨f, d, h1, h2⟩ := ih.obj o c h
        refine ⟨f, d, by rw [hs]; exact h1, h2.basic, h2.digest, h2.ready, fun hb w hw => h2.hash hb w ((hl o w).1 hw)⟩
      · intro k v p o h ho
        rcases hc k v p h with ⟨_, h⟩ | ⟨rfl, rfl, h⟩
        · obtain ⟨p', q, h1, h2, h3, h4⟩ := ih.own k v p o h ho
          exact ⟨p', q ++ [.go i], by rw [h1]; simp, h2, h3, by rw [hans]; exact h4⟩
        · rcases new p h with rfl | ⟨hne, rfl⟩
          · cases ho
          · injection ho with ho
            have hpos := List.length_pos_iff.2 hne
            rw [ih.len] at ho hpos
            exact ⟨ts, [], rfl, hci, by omega, by rw [hans]; omega⟩
      · intro k v p o c h hh h'
        rw [hans] at h'
        rcases hc k v p h with ⟨_, h⟩ | ⟨rfl, rfl, h⟩
        · obtain ⟨h1, w, h2⟩ := ih.inside k v p o c h hh h'
          exact ⟨h1, w, (hl o w).2 h2⟩
        · rcases new p h with rfl | ⟨_, rfl⟩ <;> cases hh
      · intro k v o x c h h'
        rw [hans] at h'
        rcases hc k v _ h with ⟨_, h⟩ | ⟨rfl, rfl, h⟩
        · exact ih.key k v o x c h h'
        · rcases new _ h with h | ⟨_, h⟩ <;> cases h
      · intro k v o x c h h'
        rw [hans] at h'
        rcases hc k v _ h with ⟨_, h⟩ | ⟨rfl, rfl, h⟩
        · exact ih.keyed k v o x c h h'
        · rcases new _ h with h | ⟨_, h⟩ <;> cases h
      · intro o w h
        rw [hans]
        exact ih.latest o w ((hl o w).1 h)
      · intro k v o a c h h'
        rw [hans] at h'
        rcases hc k v _ h with ⟨_, h⟩ | ⟨rfl, rfl, h⟩
        · exact law_snoc _ (ih.law k v o a c h h')
        · rcases new _ h with h | ⟨_, h⟩ <;> cases h
    · cases ho : pc.obj with
      | none =>
        refine inv_idle ih ?_ ha (latest_unbound fun w o h => ?_)
        · rw [authTurns_snoc]; simp only [authTurn, hci, if_neg hst, ho]
        · obtain ⟨_, rfl⟩ := hat _ _ h
          cases ho
      | some o =>
        have hof : pc.of = some o := by cases pc <;> first | exact ho | cases ho
        obtain ⟨p0, q0, e0, c0, n0, l0⟩ := ih.own i verb pc o hci hof
        obtain ⟨c, hco⟩ : ∃ c, (answered base ts)[o]? = some c := ⟨_, List.getElem?_eq_getElem l0⟩
        obtain ⟨f, d, hfd, hk⟩ := ih.obj o c hco
        have hs : authTurns md5 base user password (ts ++ [.go i]) =
            AuthShared.mk ((authTurns md5 base user password ts).funcs.set o (f, (respond md5 verb f d pc).1))
              ((authTurns md5 base user password ts).calls.set i (verb, (respond md5 verb f d pc).2)) := by
          rw [authTurns_snoc]; simp only [authTurn, hci, if_neg hst, ho, hfd]
        have hc := hset _ _ hs
        have hof' : (respond md5 verb f d pc).2.of = some o := by
          cases pc <;> simp only [respond] <;> first | (cases ho; done) | skip
          all_goals (simp only [AuthPc.obj, Option.some.injEq, reduceCtorEq] at ho)
          all_goals subst ho
          · cases f <;> rfl
          · split <;> rfl
          · rfl
          · rfl
          · cases f <;> rfl
        -- the digest keeps what is fixed
        have hfix : c.1.basic = false → ∃ h, Ready md5 c.2 c.1 user password h (respond md5 verb f d pc).1 ∧
            (c.1.algorithm ≠ b!"md5-sess" → h = md5hex md5 (colons user [c.1.realm, password])) := by
          intro hb
          obtain ⟨h, hr, hh⟩ := hk.ready hb
          obtain ⟨r1, r2, r3, r4, r5, r6, r7⟩ := hr
          cases pc <;> simp only [respond] <;> first | (cases ho; done) | skip
          · rw [hk.digest hb]
            exact ⟨h, ⟨r1, r2, r3, r4, r5, r6, r7⟩, hh⟩
          · split <;> exact ⟨h, ⟨r1, r2, r3, r4, r5, r6, r7⟩, hh⟩
          · refine ⟨_, ⟨r1, r2, r3, r4, r5, r6, rfl⟩, fun hs' => ?_⟩
            injection ho with ho
            subst ho
            exact absurd (ih.keyed i verb _ _ c hci hco) hs'
          · exact ⟨h, ⟨r1, r2, r3, r4, r5, r6, r7⟩, hh⟩
          · rw [hk.digest hb]
            exact ⟨h, ⟨r1, r2, r3, r4, r5, r6, r7⟩, hh⟩
        have hother : ∀ o' w, o' ≠ o → LatestHash md5 base user password (ts ++ [.go i]) o' w → LatestHash md5 base user password ts o' w := by
          intro o' w hne h
          rcases (latest_snoc _ _ _ _).1 h with ⟨j, hj, h⟩ | ⟨_, h⟩
          · injection hj with hj
            subst hj
            obtain ⟨_, rfl⟩ := hat _ _ h
            injection ho with ho
            exact absurd ho hne
          · exact h
        have hstay : pc ≠ .bound o → ∀ o' w, LatestHash md5 base user password (ts ++ [.go i]) o' w ↔ LatestHash md5 base user password ts o' w := by
          intro hne
          refine latest_unbound fun w o' h => ?_
          obtain ⟨_, rfl⟩ := hat _ _ h
          injection ho with ho
          subst ho
          exact hne rfl
        have hnew : pc = .bound o → ∀ w, LatestHash md5 base user password (ts ++ [.go i]) o w ↔ w = verb := by
          rintro rfl w
          rw [latest_snoc]
          constructor
          · rintro (⟨j, hj, h⟩ | ⟨h, _⟩)
            · injection hj with hj
              subst hj
              exact (hat _ _ h).1
            · exact absurd hci (h i verb rfl)
          · rintro rfl
            exact .inl ⟨i, rfl, hci⟩
        have hha2 : c.1.basic = false → ∀ w, LatestHash md5 base user password (ts ++ [.go i]) o w →
            (respond md5 verb f d pc).1.ha2 = hashA2 (md5hex md5) c.1.qop w c.1.uri [] := by
          intro hb w hw
          by_cases hbd : pc = .bound o
          · have := (hnew hbd w).1 hw
            subst this
            subst hbd
            obtain ⟨h, hr, _⟩ := hk.ready hb
            rw [hk.digest hb]
            simp only [respond]
            rw [newHa2_eq, hr.qop, hr.uri]
          · have hd : (respond md5 verb f d pc).1.ha2 = d.ha2 := by
              cases pc <;> simp only [respond] <;> first | (cases ho; done) | skip
              · injection ho with ho; subst ho; exact absurd rfl hbd
              · split <;> rfl
              · cases f <;> rfl
            rw [hd]
            exact hk.hash hb w ((hstay hbd o w).1 hw)
        have some_latest : ∀ o' w, LatestHash md5 base user password ts o' w → ∃ w', LatestHash md5 base user password (ts ++ [.go i]) o' w' := by
          intro o' w h
          by_cases hb : pc = .bound o
          · by_cases he : o' = o
            · subst he; exact ⟨verb, (hnew hb verb).2 rfl⟩
            · refine ⟨w, (latest_snoc _ _ _ _).2 (.inr ⟨fun j w' hj hj' => ?_, h⟩)⟩
              injection hj with hj
              subst hj
              obtain ⟨_, hp⟩ := hat _ _ hj'
              rw [← hp] at ho
              injection ho with ho
              exact he ho
          · exact ⟨w, (hstay hb o' w).2 h⟩
        have same : ∀ c', (answered base ts)[o]? = some c' → c' = c := by
          intro c' h; rw [hco] at h; injection h with h; exact h.symm
        have lo : o < (authTurns md5 base user password ts).funcs.length := by rw [ih.len]; exact l0
        constructor
        · rw [hs, hans]; simp [ih.len]
        · intro o' c' h
          rw [hans] at h
          by_cases he : o' = o
          · subst he
            have := same c' h
            subst this
            refine ⟨f, (respond md5 verb f d pc).1, ?_, hk.basic, hk.digest, hfix, hha2⟩
            rw [hs]
            dsimp only
            rw [List.getElem?_set_self lo]
          · obtain ⟨f', d', h1, h2⟩ := ih.obj o' c' h
            refine ⟨f', d', ?_, h2.basic, h2.digest, h2.ready, fun hb w hw => h2.hash hb w (hother o' w he hw)⟩
            rw [hs]
            dsimp only
            rw [List.getElem?_set_ne (Ne.symm he)]
            exact h1
        · intro k v p o' h ho'
          rcases hc k v p h with ⟨_, h⟩ | ⟨rfl, rfl, rfl⟩
          · obtain ⟨p', q, h1, h2, h3, h4⟩ := ih.own k v p o' h ho'
            exact ⟨p', q ++ [.go i], by rw [h1]; simp, h2, h3, by rw [hans]; exact h4⟩
          · rw [hof'] at ho'
            injection ho' with ho'
            subst ho'
            exact ⟨p0, q0 ++ [.go k], by rw [e0]; simp, c0, n0, by rw [hans]; exact l0⟩
        · intro k v p o' c' h hh h'
          rw [hans] at h'
          rcases hc k v p h with ⟨_, h⟩ | ⟨rfl, rfl, rfl⟩
          · obtain ⟨h1, w, h2⟩ := ih.inside k v p o' c' h hh h'
            exact ⟨h1, some_latest o' w h2⟩
          · have he : o' = o := by
              have : (respond md5 v f d pc).2.of = some o' := by
                revert hh
                generalize (respond md5 v f d pc).2 = x
                intro hh
                cases x <;> first | (cases hh; done) | (cases hh; rfl)
              rw [hof'] at this
              injection this with this
              exact this.symm
            subst he
            have := same c' h'
            subst this
            by_cases hbd : pc = .bound o'
            · subst hbd
              cases hb : c'.1.basic with
              | true =>
                rw [hk.basic hb] at hh
                cases hh
              | false => exact ⟨rfl, v, (hnew rfl v).2 rfl⟩
            · have hin : Hashing o' pc := by
                cases pc <;> simp only [AuthPc.obj, Option.some.injEq, reduceCtorEq] at ho
                · subst ho
                  exact absurd rfl hbd
                all_goals exact ho
              obtain ⟨h1, w, h2⟩ := ih.inside k v pc o' c' hci hin h'
              exact ⟨h1, some_latest o' w h2⟩
        · intro k v o' x c' h h' hs'
          rw [hans] at h'
          rcases hc k v _ h with ⟨_, h⟩ | ⟨rfl, rfl, h⟩
          · exact ih.key k v o' x c' h h' hs'
          · have he : o' = o := by
              rw [← h] at hof'
              injection hof'
            subst he
            have := same c' h'
            subst this
            have hd : x = d.ha1 ∧ (Hashing o' pc) := by
              cases pc <;> simp only [respond] at h <;> first | (cases ho; done) | skip
              · cases f <;> cases h
              · injection ho with ho
                split at h <;> cases h
                exact ⟨rfl, ho⟩
              · cases h
              · injection ho with ho
                cases h
                exact ⟨rfl, ho⟩
              · cases f <;> cases h
            obtain ⟨h1, _⟩ := ih.inside k v pc o' c' hci hd.2 h'
            obtain ⟨hh, hr, he⟩ := hk.ready h1
            rw [hd.1, hr.ha1, he hs']
        · intro k v o' x c' h h'
          rw [hans] at h'
          rcases hc k v _ h with ⟨_, h⟩ | ⟨rfl, rfl, h⟩
          · exact ih.keyed k v o' x c' h h'
          · have he : o' = o := by
              rw [← h] at hof'
              injection hof'
            subst he
            have := same c' h'
            subst this
            cases pc <;> simp only [respond] at h <;> first | (cases ho; done) | skip
            · cases f <;> cases h
            · rename_i o2
              injection ho with ho
              obtain ⟨h1, _⟩ := ih.inside k v _ o' c' hci ho h'
              obtain ⟨hh, hr, he⟩ := hk.ready h1
              split at h
              · rename_i hq
                rw [← hr.algorithm]
                exact hq.2
              · cases h
            · cases h
            · cases h
            · cases f <;> cases h
        · intro o' w h
          rw [hans]
          by_cases he : o' = o
          · subst he; exact l0
          · exact ih.latest o' w (hother o' w he h)
        · intro k v o' a c' h h'
          rw [hans] at h'
          rcases hc k v _ h with ⟨_, h⟩ | ⟨rfl, rfl, h⟩
          · exact law_snoc _ (ih.law k v o' a c' h h')
          · have he : o' = o := by
              rw [← h] at hof'
              injection hof'
            subst he
            have := same c' h'
            subst this
            cases pc <;> simp only [respond] at h <;> first | (cases ho; done) | skip
            · cases hb : c'.1.basic with
              | true =>
                rw [hk.basic hb] at h
                cases h
                refine ⟨fun _ => ?_, fun hb' => by (rw [hb] at hb'; cases hb')⟩
                unfold carries
                rw [if_pos hb]
              | false => rw [hk.digest hb] at h; cases h
            · split at h <;> cases h
            · cases h
            · cases h
            · rename_i o2 x
              injection ho with ho
              subst ho
              obtain ⟨h1, w, h2⟩ := ih.inside k v _ _ c' hci rfl h'
              rw [hk.digest h1] at h
              injection h with _ h
              refine ⟨fun hb => by (rw [h1] at hb; cases hb), fun _ => ⟨ts, [], x, w, rfl, hci, h2, fun hs' => ?_⟩⟩
              obtain ⟨hh, hr, he⟩ := hk.ready h1
              have hx := ih.key k v _ x c' hci h' hs'
              rw [h]
              refine text_carries h1 hs' ?_ hx (hk.hash h1 w h2)
              rw [hx, ← he hs']
              exact hr

theorem authInv (ts : List AuthTurn) : AuthInv md5 base user password ts := by
  refine snoc_induct (P := fun ts => AuthInv md5 base user password ts) ?_ ?_ ts
  · have hc : ∀ i v pc, ¬ CallAt md5 base user password [] i v pc := by
      intro i v pc h; unfold CallAt at h; simp [authTurns] at h
    refine ⟨rfl, ?_, ?_, ?_, ?_, ?_, ?_, ?_⟩
    · intro o c h; simp [answered] at h
    · intro i v pc o h; exact absurd h (hc _ _ _)
    · intro i v pc o c h; exact absurd h (hc _ _ _)
    · intro i v o x c h; exact absurd h (hc _ _ _)
    · intro i v o x c h; exact absurd h (hc _ _ _)
    · rintro o w ⟨p, j, q, h, _⟩; simp at h
    · intro i v o a c h; exact absurd h (hc _ _ _)
  · intro ts t ih
    cases t with
    | challenge c rnd => exact inv_challenge ih c rnd
    | call v => exact inv_call ih v
    | go i => exact inv_go ih i

theorem key_done {ts : List AuthTurn} {i : Nat} {verb : Bytes} {o : Nat} {x : Bytes} {c : Digest × Bytes} {w : Bytes}
    (h : CallAt md5 base user password ts i verb (.key o x)) (hco : (answered base ts)[o]? = some c) (hs : c.1.algorithm ≠ b!"md5-sess")
    (hw : LatestHash md5 base user password ts o w) :
    CallAt md5 base user password (ts ++ [.go i]) i verb (.done o (carries md5 user password c w)) := by
  have ih := authInv (md5 := md5) (base := base) (user := user) (password := password) ts
  obtain ⟨hb, _⟩ := ih.inside i verb _ o c h rfl hco
  obtain ⟨f, d, hfd, hk⟩ := ih.obj o c hco
  obtain ⟨k, hr, he⟩ := hk.ready hb
  have hx := ih.key i verb o x c h hco hs
  have hci : (authTurns md5 base user password ts).calls[i]? = some (verb, .key o x) := h
  unfold CallAt
  rw [authTurns_snoc]
  simp only [authTurn, hci, AuthPc.obj, hfd, hk.digest hb, respond, reduceCtorEq, if_false]
  rw [List.getElem?_set_self (List.getElem?_eq_some_iff.1 hci).1, text_carries hb hs (by rw [hx, ← he hs]; exact hr) hx (hk.hash hb w hw)]

theorem done_stays {ts : List AuthTurn} {i : Nat} {verb : Bytes} {o : Nat} {a : Bytes}
    (h : CallAt md5 base user password ts i verb (.done o a)) (q : List AuthTurn) : CallAt md5 base user password (ts ++ q) i verb (.done o a) := by
  refine snoc_induct (P := fun q => CallAt md5 base user password (ts ++ q) i verb (.done o a)) (by rw [List.append_nil]; exact h) ?_ q
  intro q t ih
  rw [← List.append_assoc]
  unfold CallAt at *
  rw [authTurns_snoc]
  generalize authTurns md5 base user password (ts ++ q) = s at ih
  have hlt := (List.getElem?_eq_some_iff.1 ih).1
  cases t with
  | challenge c rnd =>
    simp only [authTurn]
    split
    · exact ih
    · split <;> exact ih
  | call v => simp only [authTurn]; rw [List.getElem?_append_left hlt]; exact ih
  | go j =>
    simp only [authTurn]
    by_cases hj : j = i
    · subst hj
      rw [ih]
      simp only [AuthPc.obj, reduceCtorEq, if_false]
      exact ih
    · split
      · exact ih
      · split
        · dsimp only; rw [List.getElem?_set_ne hj]; exact ih
        · split
          · exact ih
          · split
            · exact ih
            · dsimp only; rw [List.getElem?_set_ne hj]; exact ih

theorem answered_prefix {p q : List AuthTurn} {o : Nat} {c : Digest × Bytes} (h : (answered base p)[o]? = some c) :
    (answered base (p ++ q))[o]? = some c := by
  unfold answered at *
  rw [List.filterMap_append, List.getElem?_append_left (List.getElem?_eq_some_iff.1 h).1]
  exact h

/-- For a hash function without collisions, values for different verbs differ. -/
theorem carries_inj (hinj : ∀ a b, md5 a = md5 b → a = b) {c : Digest × Bytes} (hb : c.1.basic = false) {v w : Bytes}
    (h : carries md5 user password c v = carries md5 user password c w) : v = w := by
  have hi : ∀ a b : Bytes, hexEncode (md5 a) = hexEncode (md5 b) → a = b := fun a b h => hinj _ _ (hexEncode_inj h)
  have hnb : ¬ c.1.basic = true := by rw [hb]; exact Bool.false_ne_true
  unfold carries at h
  rw [if_neg hnb, if_neg hnb] at h
  have h := authorization_inj _ _ _ _ _ _ _ _ _ _ _ h
  have h2 : hashA2 (fun b => hexEncode (md5 b)) c.1.qop v c.1.uri [] = hashA2 (fun b => hexEncode (md5 b)) c.1.qop w c.1.uri [] := by
    unfold requestDigest at h
    split at h
    · have h := hi _ _ h
      simp only [colons] at h
      exact (List.cons.inj (List.append_cancel_left (List.cons.inj (List.append_cancel_left h)).2)).2
    · have h := hi _ _ h
      simp only [colons] at h
      have h := (List.cons.inj (List.append_cancel_left h)).2
      have h := (List.cons.inj (List.append_cancel_left h)).2
      have h := (List.cons.inj (List.append_cancel_left h)).2
      have h := (List.cons.inj (List.append_cancel_left h)).2
      exact (List.cons.inj (List.append_cancel_left h)).2
  unfold hashA2 at h2
  split at h2
  · exact List.append_cancel_right (hi _ _ h2)
  · exact List.append_cancel_right (hi _ _ h2)
end

/-! ## C147 -/

/-- **C147**, exact law. For every hash function, credentials and schedule of challenges and calls: a finished request was made for the latest
challenge answered before it asked for credentials. If that was Basic, it carries user and password. If it was Digest (and not md5-sess, for which
see C43), it carries the value of RFC 2617 for that challenge, with the verb of the call that was the latest to hash its verb when this one read the hash. -/
theorem C147_law_partial (md5 : Bytes → Bytes) (base user password : Bytes) (ts : List AuthTurn) (i : Nat) (verb : Bytes) (o : Nat) (a : Bytes)
    (h : CallAt md5 base user password ts i verb (.done o a)) :
    ∃ c, (answered base ts)[o]? = some c ∧
      (∃ p q, ts = p ++ .go i :: q ∧ CallAt md5 base user password p i verb .start ∧ (answered base p).getLast? = some c) ∧
      (c.1.basic = true → a = carries md5 user password c verb) ∧
      (c.1.basic = false → c.1.algorithm ≠ b!"md5-sess" → ∃ p q x w, ts = p ++ .go i :: q ∧ CallAt md5 base user password p i verb (.key o x) ∧
        LatestHash md5 base user password p o w ∧ a = carries md5 user password c w) := by
  have ih := authInv (md5 := md5) (base := base) (user := user) (password := password) ts
  obtain ⟨p, q, rfl, h1, h2, h3⟩ := ih.own i verb _ o h rfl
  obtain ⟨c, hc⟩ : ∃ c, (answered base p)[o]? = some c := ⟨_, List.getElem?_eq_getElem (by omega)⟩
  have hc' := answered_prefix (q := .go i :: q) hc
  have hl := ih.law i verb o a c h hc'
  refine ⟨c, hc', ⟨p, q, rfl, h1, ?_⟩, hl.1, fun hb hs => ?_⟩
  · rw [List.getLast?_eq_getElem?, h2]
    exact hc
  · obtain ⟨p', q', x, w, e, e1, e2, e3⟩ := hl.2 hb
    exact ⟨p', q', x, w, e, e1, e2, e3 hs⟩

/-- **C147**, exact: for every hash function without collisions and every schedule whose challenges are not md5-sess, all finished requests carry
what they have to carry if and only if no request read the hash when a request with another verb was the latest to write it. -/
theorem C147_iff (md5 : Bytes → Bytes) (hinj : ∀ a b, md5 a = md5 b → a = b) (base user password : Bytes) (ts : List AuthTurn)
    (hs : ∀ c ∈ answered base ts, c.1.algorithm ≠ b!"md5-sess") :
    AllOwn md5 base user password ts ↔ OwnHash md5 base user password ts := by
  constructor
  · rintro hall p i q rfl verb o v hk w hw
    have ih := authInv (md5 := md5) (base := base) (user := user) (password := password) p
    obtain ⟨_, _, _, _, _, hlt⟩ := ih.own i verb _ o hk rfl
    obtain ⟨c, hc⟩ : ∃ c, (answered base p)[o]? = some c := ⟨_, List.getElem?_eq_getElem hlt⟩
    have hc' := answered_prefix (q := .go i :: q) hc
    obtain ⟨hb, _⟩ := ih.inside i verb _ o c hk rfl hc
    have hd := done_stays (key_done hk hc (hs c (List.mem_of_getElem? hc')) hw) q
    rw [List.append_assoc, List.singleton_append] at hd
    obtain ⟨c', h1, h2⟩ := hall i verb o _ hd
    rw [hc'] at h1
    injection h1 with h1
    subst h1
    exact carries_inj hinj hb h2
  · intro hown i verb o a h
    obtain ⟨c, hc, _, hbas, hdig⟩ := C147_law_partial md5 base user password ts i verb o a h
    refine ⟨c, hc, ?_⟩
    cases hb : c.1.basic with
    | true => exact hbas hb
    | false =>
      obtain ⟨p, q, x, w, rfl, hk, hw, e⟩ := hdig hb (hs c (List.mem_of_getElem? hc))
      rw [e, hown p i q rfl verb o x hk w hw]

theorem hashing_back {md5 : Bytes → Bytes} {base user password : Bytes} {ts : List AuthTurn} {t : AuthTurn} {i : Nat} {verb : Bytes} {pc : AuthPc} {o : Nat}
    (h : CallAt md5 base user password (ts ++ [t]) i verb pc) (hh : Hashing o pc) :
    (∃ pc', CallAt md5 base user password ts i verb pc' ∧ Hashing o pc') ∨ (t = .go i ∧ CallAt md5 base user password ts i verb (.bound o)) := by
  unfold CallAt at *
  rw [authTurns_snoc] at h
  generalize authTurns md5 base user password ts = s at h
  cases t with
  | challenge c rnd =>
    simp only [authTurn] at h
    refine .inl ⟨pc, ?_, hh⟩
    split at h
    · exact h
    · split at h <;> exact h
  | call v =>
    simp only [authTurn] at h
    by_cases hi : i < s.calls.length
    · rw [List.getElem?_append_left hi] at h
      exact .inl ⟨pc, h, hh⟩
    · rw [List.getElem?_append_right (by omega)] at h
      obtain ⟨_, h⟩ := List.getElem?_eq_some_iff.1 h
      simp only [List.getElem_singleton, Prod.mk.injEq] at h
      rw [← h.2] at hh
      cases hh
  | go j =>
    simp only [authTurn] at h
    by_cases hj : j = i
    · subst hj
      cases hc : s.calls[j]? with
      | none => rw [hc] at h; dsimp only at h; rw [hc] at h; cases h
      | some vp =>
        obtain ⟨v, pc0⟩ := vp
        have hlt := (List.getElem?_eq_some_iff.1 hc).1
        rw [hc] at h
        dsimp only at h
        split at h
        · dsimp only at h
          rw [List.getElem?_set_self hlt] at h
          injection h with h
          injection h with _ h
          rw [← h] at hh
          split at hh <;> cases hh
        · split at h
          · exact .inl ⟨pc, by rw [hc] at h; exact h, hh⟩
          · rename_i o' ho
            split at h
            · exact .inl ⟨pc, by rw [hc] at h; exact h, hh⟩
            · rename_i f d hf
              dsimp only at h
              rw [List.getElem?_set_self hlt] at h
              injection h with h
              injection h with hv h
              subst hv
              subst h
              cases pc0 <;> simp only [respond] at hh <;> simp only [AuthPc.obj, reduceCtorEq] at ho
              · cases f with
                | basic a => cases hh
                | digest a =>
                  have : _ = o := hh
                  subst this
                  exact .inr ⟨rfl, rfl⟩
              · refine .inl ⟨_, rfl, ?_⟩
                split at hh <;> exact hh
              · exact .inl ⟨_, rfl, hh⟩
              · exact .inl ⟨_, rfl, hh⟩
              · cases f <;> cases hh
    · refine .inl ⟨pc, ?_, hh⟩
      split at h
      · exact h
      · split at h
        · dsimp only at h; rw [List.getElem?_set_ne hj] at h; exact h
        · split at h
          · exact h
          · split at h
            · exact h
            · dsimp only at h; rw [List.getElem?_set_ne hj] at h; exact h

theorem noMix_latest (md5 : Bytes → Bytes) (base user password : Bytes) (ts : List AuthTurn) : NoMix md5 base user password ts →
    ∀ i verb pc o, CallAt md5 base user password ts i verb pc → Hashing o pc → ∀ w, LatestHash md5 base user password ts o w → w = verb := by
  refine snoc_induct (P := fun ts => NoMix md5 base user password ts → ∀ i verb pc o, CallAt md5 base user password ts i verb pc → Hashing o pc →
    ∀ w, LatestHash md5 base user password ts o w → w = verb) ?_ ?_ ts
  · intro _ i verb pc o h
    unfold CallAt at h
    simp [authTurns] at h
  · intro ts t ih hx i verb pc o h hh w hw
    have ih := ih fun p hp => hx p (hp.trans (List.prefix_append _ _))
    have hy := hx (ts ++ [t]) (List.prefix_refl _)
    rcases (latest_snoc _ _ _ _).1 hw with ⟨j, rfl, hj⟩ | ⟨hn, hw'⟩
    · have inv := authInv (md5 := md5) (base := base) (user := user) (password := password) ts
      have inv' := authInv (md5 := md5) (base := base) (user := user) (password := password) (ts ++ [.go j])
      obtain ⟨_, _, _, _, _, hlt⟩ := inv.own j w _ o hj rfl
      obtain ⟨c, hc⟩ : ∃ c, (answered base ts)[o]? = some c := ⟨_, List.getElem?_eq_getElem hlt⟩
      obtain ⟨hb, _⟩ := inv'.inside i verb pc o c h hh (answered_prefix hc)
      obtain ⟨f, d, hfd, hk⟩ := inv.obj o c hc
      have hcj : (authTurns md5 base user password ts).calls[j]? = some (w, .bound o) := hj
      have : CallAt md5 base user password (ts ++ [.go j]) j w (.hashed o) := by
        unfold CallAt
        rw [authTurns_snoc]
        simp only [authTurn, hcj, AuthPc.obj, hfd, hk.digest hb, respond, reduceCtorEq, if_false]
        rw [List.getElem?_set_self (List.getElem?_eq_some_iff.1 hcj).1]
      exact hy j i w verb _ pc o this h rfl hh
    · rcases hashing_back h hh with ⟨pc', h', hh'⟩ | ⟨rfl, h'⟩
      · exact ih i verb pc' o h' hh' w hw'
      · exact absurd h' (hn i verb rfl)

/-- **C147**, part: for every hash function and every schedule in which calls for different verbs are never between writing and reading the hash for
the same challenge at the same time, and whose challenges are not md5-sess, every finished request carries what it has to carry. -/
theorem C147_apart_partial (md5 : Bytes → Bytes) (base user password : Bytes) (ts : List AuthTurn)
    (hs : ∀ c ∈ answered base ts, c.1.algorithm ≠ b!"md5-sess") (hx : NoMix md5 base user password ts) : AllOwn md5 base user password ts := by
  intro i verb o a h
  obtain ⟨c, hc, _, hbas, hdig⟩ := C147_law_partial md5 base user password ts i verb o a h
  refine ⟨c, hc, ?_⟩
  cases hb : c.1.basic with
  | true => exact hbas hb
  | false =>
    obtain ⟨p, q, x, w, rfl, hk, hw, e⟩ := hdig hb (hs c (List.mem_of_getElem? hc))
    rw [e, noMix_latest md5 base user password p (fun p' hp => hx p' (hp.trans (List.prefix_append _ _))) i verb _ o hk rfl w hw]

/-- The schedule of two calls of which the second hashes its verb between the first one's writing and reading the hash. -/
def crossed (c rnd v w : Bytes) : List AuthTurn :=
  [.challenge c rnd, .call v, .call w, .go 0, .go 1, .go 0, .go 1, .go 0, .go 0]

/-- **C147** does not hold: for every hash function, all credentials, every Digest challenge (other than md5-sess) and every two verbs there is a schedule at
the end of which the first request carries the value for the verb of the second. If the hash function has no collisions and the verbs differ,
that is not the value it has to carry. -/
theorem C147_refuted (md5 : Bytes → Bytes) (base user password c rnd v w : Bytes) (d0 : Digest) (h : newDigest base c = .ok d0) (hb : d0.basic = false)
    (hs : d0.algorithm ≠ b!"md5-sess") :
    CallAt md5 base user password (crossed c rnd v w) 0 v (.done 0 (carries md5 user password (d0, rnd) w)) ∧
    ((∀ a b, md5 a = md5 b → a = b) → v ≠ w → ¬ AllOwn md5 base user password (crossed c rnd v w)) := by
  obtain ⟨d, h1, h2⟩ := authenticate_digest md5 rnd user password d0 hb (newDigest_init h).2
  have hans : ∀ q, (answered base (.challenge c rnd :: q))[0]? = some (d0, rnd) := by
    intro q; simp [answered, h, Except.toOption]
  have step : CallAt md5 base user password (crossed c rnd v w) 0 v (.done 0 (carries md5 user password (d0, rnd) w)) := by
    have e : crossed c rnd v w = [.challenge c rnd, .call v, .call w, .go 0, .go 1, .go 0, .go 1, .go 0] ++ [.go 0] := rfl
    rw [e]
    have ha : ¬ d.algorithm = b!"md5-sess" := fun e => hs (h2.algorithm ▸ e)
    refine key_done (x := d.ha1) ?_ (hans _) hs ?_
    · simp only [CallAt, authTurns, List.foldl_cons, List.foldl_nil, authTurn, h, h1]
      simp [respond, AuthPc.obj, ha]
    · refine ⟨[.challenge c rnd, .call v, .call w, .go 0, .go 1, .go 0], 1, [.go 0], rfl, ?_, ?_⟩
      · simp only [CallAt, authTurns, List.foldl_cons, List.foldl_nil, authTurn, h, h1]
        simp [respond, AuthPc.obj]
      · intro p' j' q' e v' hc
        cases p' with
        | cons x t => simp at e
        | nil =>
          injection e with e _
          injection e with e
          subst e
          revert hc
          simp only [CallAt, authTurns, List.foldl_cons, List.foldl_nil, authTurn, h, h1, List.cons_append, List.nil_append]
          simp [respond, AuthPc.obj]
  refine ⟨step, fun hinj hne hall => ?_⟩
  obtain ⟨c', e1, e2⟩ := hall 0 v 0 _ step
  rw [show (answered base (crossed c rnd v w))[0]? = some (d0, rnd) from hans _] at e1
  injection e1 with e1
  subst e1
  exact hne (carries_inj hinj hb e2.symm)

/-- The hypotheses of the refutation are met by an ordinary challenge. -/
example : ∃ d0, newDigest b!"rtsp://h/a" b!"Digest realm=\"r\", nonce=\"n\", qop=\"auth\"" = .ok d0 ∧ d0.basic = false ∧ d0.algorithm ≠ b!"md5-sess" :=
  ⟨{ uri := b!"rtsp://h/a", realm := b!"r", nonce := b!"n", algorithm := b!"md5", qop := b!"auth" }, by decide⟩

/-- A hash function without collisions, for examples: the bytes themselves. -/
def plainHash (b : Bytes) : Bytes := b

/-- Two calls, one after the other, after a challenge; between them, a second challenge. -/
def inTurn : List AuthTurn :=
  [.call b!"OPTIONS", .go 0, .challenge b!"Digest realm=\"r\", nonce=\"n\"" b!"12345678", .call b!"PLAY", .go 1, .go 1, .go 1, .go 1,
   .challenge b!"Basic realm=\"r\"" b!"12345678", .call b!"PAUSE", .go 2, .go 2]

/-- After it the requests carry nothing, a Digest value and a Basic value. -/
example : (authTurns plainHash b!"u" b!"me" b!"pw" inTurn).calls.map (·.2) =
    [.bare, .done 0 (carries plainHash b!"me" b!"pw" ({ uri := b!"u", realm := b!"r", nonce := b!"n", algorithm := b!"md5" }, b!"12345678") b!"PLAY"),
     .done 1 b!"Basic bWU6cHc="] := by decide +kernel

/-- The schedule meets the hypothesis of `C147_apart_partial`. -/
example : NoMix plainHash b!"u" b!"me" b!"pw" inTurn ∧ ∀ c ∈ answered b!"u" inTurn, c.1.algorithm ≠ b!"md5-sess" := by
  refine ⟨?_, by decide +kernel⟩
  have all : ∀ n ∈ List.range 13, ∀ x ∈ (authTurns plainHash b!"u" b!"me" b!"pw" (inTurn.take n)).calls,
      ∀ y ∈ (authTurns plainHash b!"u" b!"me" b!"pw" (inTurn.take n)).calls, x.2.obj.isSome = true → y.2.obj.isSome = true → x.1 = y.1 := by
    decide +kernel
  have some_obj : ∀ (a : AuthPc) (o : Nat), Hashing o a → a.obj.isSome = true := by
    intro a o h
    cases a <;> first | rfl | cases h
  intro p hp i j v w a b o h1 h2 ha hb
  have hlen : p.length < 13 := Nat.lt_succ_of_le hp.length_le
  rw [List.prefix_iff_eq_take.1 hp] at h1 h2
  exact all _ (List.mem_range.2 hlen) (v, a) (List.mem_of_getElem? h1) (w, b) (List.mem_of_getElem? h2) (some_obj _ _ ha) (some_obj _ _ hb)

/-- Two calls with the same verb that cross are right; `crossed` with two verbs is not. -/
example : OwnHash plainHash b!"u" b!"me" b!"pw" (crossed b!"Digest realm=\"r\", nonce=\"n\"" b!"12345678" b!"OPTIONS" b!"OPTIONS") := by
  refine (C147_iff plainHash (fun _ _ h => h) _ _ _ _ ?_).1 ?_
  · decide +kernel
  · intro i verb o a h
    obtain ⟨h1, _⟩ := C147_refuted plainHash b!"u" b!"me" b!"pw" b!"Digest realm=\"r\", nonce=\"n\"" b!"12345678" b!"OPTIONS" b!"OPTIONS" _
      (by decide +kernel : newDigest b!"u" b!"Digest realm=\"r\", nonce=\"n\"" =
        .ok { uri := b!"u", realm := b!"r", nonce := b!"n", algorithm := b!"md5" }) rfl (by decide)
    unfold CallAt at h h1
    rcases i with _ | _ | i
    · rw [h1] at h
      injection h with h
      injection h with hv h
      injection h with ho h
      subst hv; subst ho; subst h
      exact ⟨_, by decide +kernel, rfl⟩
    · exfalso
      revert h
      have : (authTurns plainHash b!"u" b!"me" b!"pw" (crossed b!"Digest realm=\"r\", nonce=\"n\"" b!"12345678" b!"OPTIONS" b!"OPTIONS")).calls[1]? =
        some (b!"OPTIONS", .hashed 0) := by decide +kernel
      rw [this]
      intro h
      cases h
    · exfalso
      have : (authTurns plainHash b!"u" b!"me" b!"pw" (crossed b!"Digest realm=\"r\", nonce=\"n\"" b!"12345678" b!"OPTIONS" b!"OPTIONS")).calls.length = 2 := by
        decide +kernel
      rw [List.getElem?_eq_none (by omega)] at h
      cases h

end Ouro
