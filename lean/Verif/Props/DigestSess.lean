import Verif.Props.Bounds

/-! C43: what every request of an md5-sess session carries, and which of them are right. -/

namespace Ouro
open Spec

/-- The hash of RFC 2617's A1 for md5-sess (section 3.2.2.2), applied again to its own result: 0 times it is H(user:realm:password), once it is the
session key of RFC 2617. -/
def sessionKey (hash : Bytes → Bytes) (user realm password nonce cnonce : Bytes) : Nat → Bytes
  | 0 => hash (colons user [realm, password])
  | n + 1 => hash (colons (sessionKey hash user realm password nonce cnonce n) [nonce, cnonce])

/-- The Authorization value of RFC 2617 with nonce count 1, for an md5-sess challenge with qop, but with the given session key. -/
def keyedAuthorization (md5 : Bytes → Bytes) (rnd : Bytes) (d0 : Digest) (user key verb body : Bytes) : Bytes :=
  authorization user d0.realm d0.nonce d0.uri d0.algorithm d0.opaque_ d0.qop b!"00000001" (clientNonce rnd)
    (md5hex md5 (colons key [d0.nonce, b!"00000001", clientNonce rnd, d0.qop, hashA2 (md5hex md5) d0.qop verb d0.uri body]))

theorem keyed_rfc (md5 : Bytes → Bytes) (rnd : Bytes) (d0 : Digest) (user password verb body : Bytes) (hs : d0.algorithm = b!"md5-sess") (hq : d0.qop ≠ []) :
    rfcAuthorization md5 rnd d0 user password verb body =
      keyedAuthorization md5 rnd d0 user (sessionKey (md5hex md5) user d0.realm password d0.nonce (clientNonce rnd) 1) verb body := by
  unfold rfcAuthorization requestDigest hashA1 keyedAuthorization sessionKey sessionKey
  simp only [hq, if_false, hs, decide_true, if_true]

theorem authCalls_sess (md5 : Bytes → Bytes) (rnd user password : Bytes) (d0 : Digest)
    (hs : d0.algorithm = b!"md5-sess") (hq : d0.qop ≠ []) (reqs : List (Bytes × Bytes)) : ∀ n d,
    Ready md5 rnd d0 user password (sessionKey (md5hex md5) user d0.realm password d0.nonce (clientNonce rnd) n) d →
    authCalls md5 (.digest (authPrefix d0 user)) d reqs = .ok (reqs.mapIdx fun i r =>
      keyedAuthorization md5 rnd d0 user (sessionKey (md5hex md5) user d0.realm password d0.nonce (clientNonce rnd) (n + i + 1)) r.1 r.2) := by
  induction reqs with
  | nil => intros; rfl
  | cons r t ih =>
    intro n d h
    obtain ⟨verb, body⟩ := r
    obtain ⟨d', h1, h2⟩ := authCall_digest md5 rnd user password d0 d _ h verb body
    simp only [hs, hq, ne_eq, not_false_eq_true, and_self, if_true, if_false] at h1 h2
    rw [authCalls, h1, go_ok_bind]
    dsimp only
    rw [ih (n + 1) d' h2, go_ok_bind, go_pure, List.mapIdx_cons]
    congr 2
    congr 1
    funext i r
    rw [show n + 1 + i + 1 = n + (i + 1) + 1 by omega]

/-- **C43**, exact law for md5-sess. For every hash function, session and number of requests: request `i` (from 0) carries the Authorization value of
RFC 2617, but with a session key that was hashed `i + 1` times instead of once. -/
theorem C43_sess_exact (md5 : Bytes → Bytes) (rnd uri challenge user password : Bytes) (d0 : Digest)
    (h : newDigest uri challenge = .ok d0) (hb : d0.basic = false) (hs : d0.algorithm = b!"md5-sess") (hq : d0.qop ≠ []) (reqs : List (Bytes × Bytes)) :
    ∃ f d, authenticate md5 rnd d0 user password = .ok (f, d) ∧
      authCalls md5 f d reqs = .ok (reqs.mapIdx fun i r => keyedAuthorization md5 rnd d0 user
        (sessionKey (md5hex md5) user d0.realm password d0.nonce (clientNonce rnd) (i + 1)) r.1 r.2) := by
  obtain ⟨d, h1, h2⟩ := authenticate_digest md5 rnd user password d0 hb (newDigest_init h).2
  refine ⟨_, d, h1, ?_⟩
  have := authCalls_sess md5 rnd user password d0 hs hq reqs 0 d h2
  simpa only [Nat.zero_add] using this

/-- **C43**, which requests are right: for every hash function without collisions, request `i` of an md5-sess session carries what RFC 2617 asks for
if and only if hashing the session key `i` times gives back what was hashed (`i = 0`, or the hash runs in a circle). -/
theorem C43_sess_iff (md5 : Bytes → Bytes) (hinj : ∀ a b, md5 a = md5 b → a = b) (rnd uri challenge user password : Bytes) (d0 : Digest)
    (h : newDigest uri challenge = .ok d0) (hb : d0.basic = false) (hs : d0.algorithm = b!"md5-sess") (hq : d0.qop ≠ [])
    (reqs : List (Bytes × Bytes)) (i : Nat) (verb body : Bytes) (hi : reqs[i]? = some (verb, body)) :
    ∃ f d as a, authenticate md5 rnd d0 user password = .ok (f, d) ∧ authCalls md5 f d reqs = .ok as ∧ as[i]? = some a ∧
      (a = rfcAuthorization md5 rnd d0 user password verb body ↔
        sessionKey (md5hex md5) user d0.realm password d0.nonce (clientNonce rnd) i = md5hex md5 (colons user [d0.realm, password])) := by
  obtain ⟨f, d, h1, h2⟩ := C43_sess_exact md5 rnd uri challenge user password d0 h hb hs hq reqs
  have hinj' : ∀ a b, md5hex md5 a = md5hex md5 b → a = b := fun a b h => hinj _ _ (hexEncode_inj h)
  refine ⟨f, d, _, _, h1, h2, by rw [List.getElem?_mapIdx, hi]; rfl, ?_⟩
  rw [keyed_rfc md5 rnd d0 user password verb body hs hq]
  constructor
  · intro he
    unfold keyedAuthorization at he
    have he := authorization_inj _ _ _ _ _ _ _ _ _ _ _ he
    have he := hinj' _ _ he
    simp only [colons] at he
    have he := List.append_cancel_right he
    have he := hinj' _ _ he
    exact List.append_cancel_right he
  · intro he
    rw [show sessionKey (md5hex md5) user d0.realm password d0.nonce (clientNonce rnd) (i + 1) =
      sessionKey (md5hex md5) user d0.realm password d0.nonce (clientNonce rnd) 1 by simp only [sessionKey, he]]

/-- A session of three requests; the third is wrong (with the identity for a hash function). -/
example : ∃ d0, newDigest b!"/a" b!"Digest realm=\"r\", nonce=\"n\", qop=auth, algorithm=md5-sess" = .ok d0 ∧ d0.basic = false ∧
    d0.algorithm = b!"md5-sess" ∧ d0.qop ≠ [] ∧ (([(b!"OPTIONS", []), (b!"DESCRIBE", []), (b!"PLAY", [])] : List (Bytes × Bytes))[2]? = some (b!"PLAY", [])) ∧
    sessionKey (md5hex id) b!"u" d0.realm b!"p" d0.nonce (clientNonce []) 2 ≠ md5hex id (colons b!"u" [d0.realm, b!"p"]) :=
  ⟨{ uri := b!"/a", realm := b!"r", nonce := b!"n", qop := b!"auth", algorithm := b!"md5-sess" }, by decide +kernel⟩

end Ouro
