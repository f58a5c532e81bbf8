import Verif.Spec.NonceCount
import Verif.Props.Digest
/-! # C44: exactly when nonce counts repeat -/
namespace Ouro
open Spec

/-- One plus the number of calls of `Next` before each request. -/
def callsBefore : Nat → List DigestUse → List Nat
  | _, [] => []
  | n, .next _ :: t => callsBefore (n + 1) t
  | n, .request _ _ :: t => n :: callsBefore n t

/-- The digest has counted to `n`. -/
structure Counted (d0 : Digest) (n : Nat) (d : Digest) : Prop where
  qop : d.qop = d0.qop
  count : d.count = n
  nc : d.nc = fmtHex8 n

theorem counted_next {d0 d : Digest} {n : Nat} (hq : d0.qop ≠ []) (h : Counted d0 n d) (rnd : Bytes) :
    Counted d0 (n + 1) (digestNext rnd d) := by
  unfold digestNext
  rw [if_neg (by rw [h.qop]; exact hq)]
  exact ⟨h.qop, by rw [← h.count], by rw [← h.count]⟩

theorem counted_call (md5 : Bytes → Bytes) (user : Bytes) {d0 d : Digest} {n : Nat} (hq : d0.qop ≠ []) (h : Counted d0 n d) (verb body : Bytes) :
    ∃ d' resp, authCall md5 (.digest (authPrefix d0 user)) d verb body =
        .ok (authorization user d0.realm d0.nonce d0.uri d0.algorithm d0.opaque_ d0.qop (fmtHex8 n) d.cnonce resp, d') ∧
      Counted d0 n d' := by
  have hq' : d.qop ≠ [] := by rw [h.qop]; exact hq
  have hfin : ∀ resp, authPrefix d0 user ++ (b!", qop=\"" ++ d.qop ++ b!"\", nc=" ++ d.nc ++ b!", cnonce=\"" ++ d.cnonce ++
      b!"\", response=\"" ++ resp ++ b!"\"") =
      authorization user d0.realm d0.nonce d0.uri d0.algorithm d0.opaque_ d0.qop (fmtHex8 n) d.cnonce resp := by
    intro resp
    rw [h.qop, h.nc]
    unfold authorization authPrefix
    rw [if_neg hq]
    by_cases ho : d0.opaque_ = [] <;> simp [ho, commaSpace, quotedParam]
  unfold authCall
  dsimp only
  unfold digestResponse
  have e1 : (if d.qop = b!"auth-int" then colonnade verb [d.uri, md5hex md5 body] else colonnade verb [d.uri] : Go Bytes) =
      .ok (if d.qop = b!"auth-int" then colons verb [d.uri, md5hex md5 body] else colons verb [d.uri]) := by
    split <;> exact colonnade_ok _ _
  rw [e1, go_ok_bind]
  dsimp only
  rw [if_neg hq']
  by_cases hs : d.algorithm = b!"md5-sess"
  · rw [if_pos hs, colonnade_ok, go_ok_bind, go_pure, go_ok_bind, colonnade_ok, go_ok_bind, go_pure, go_ok_bind, go_pure]
    refine ⟨_, _, congrArg Except.ok (Prod.ext (hfin _) rfl), ?_⟩
    exact ⟨h.qop, h.count, h.nc⟩
  · rw [if_neg hs, go_pure, go_ok_bind, colonnade_ok, go_ok_bind, go_pure, go_ok_bind, go_pure]
    refine ⟨_, _, congrArg Except.ok (Prod.ext (hfin _) rfl), ?_⟩
    exact ⟨h.qop, h.count, h.nc⟩

theorem values_counts (md5 : Bytes → Bytes) (user : Bytes) {d0 : Digest} (hq : d0.qop ≠ []) (uses : List DigestUse) :
    ∀ (n : Nat) (d : Digest), Counted d0 n d → ∃ as, valuesSent md5 (.digest (authPrefix d0 user)) d uses = .ok as ∧
      as.length = (callsBefore n uses).length ∧ ∀ (k m : Nat), (callsBefore n uses)[k]? = some m → ∃ cnonce resp,
        as[k]? = some (authorization user d0.realm d0.nonce d0.uri d0.algorithm d0.opaque_ d0.qop (fmtHex8 m) cnonce resp) := by
  induction uses with
  | nil => exact fun n d h => ⟨[], rfl, rfl, fun k m hk => by simp [callsBefore] at hk⟩
  | cons u t ih =>
    intro n d h
    cases u with
    | next rnd => exact ih (n + 1) _ (counted_next hq h rnd)
    | request v b =>
      obtain ⟨d', resp, e, h'⟩ := counted_call md5 user hq h v b
      obtain ⟨as, h1, h2, h3⟩ := ih n d' h'
      refine ⟨_ :: as, by rw [valuesSent, e]; dsimp only; rw [h1], by simp [callsBefore, h2], fun k m hk => ?_⟩
      cases k with
      | zero =>
        have : n = m := by simpa [callsBefore] using hk
        subst this
        exact ⟨_, _, rfl⟩
      | succ k => exact h3 k m (by simpa [callsBefore] using hk)

theorem callsBefore_ge (uses : List DigestUse) : ∀ n m, m ∈ callsBefore n uses → n ≤ m := by
  induction uses with
  | nil => intro n m h; cases h
  | cons u t ih =>
    intro n m h
    cases u with
    | next rnd => exact Nat.le_of_succ_le (ih (n + 1) m h)
    | request v b =>
      rcases List.mem_cons.1 h with rfl | h
      · exact Nat.le_refl _
      · exact ih n m h

theorem callsBefore_mem (t : List DigestUse) : ∀ n, n ∈ callsBefore n t ↔
    ∃ mid v b post, t = mid ++ .request v b :: post ∧ ∀ rnd, DigestUse.next rnd ∉ mid := by
  induction t with
  | nil =>
    intro n
    refine ⟨fun h => by (cases h), ?_⟩
    rintro ⟨mid, v, b, post, h, -⟩
    cases mid <;> cases h
  | cons u t ih =>
    intro n
    cases u with
    | next rnd =>
      constructor
      · intro h
        have := callsBefore_ge t (n + 1) n h
        omega
      · rintro ⟨mid, v, b, post, h, hn⟩
        cases mid with
        | nil => cases h
        | cons x mid =>
          injection h with h1 h2
          exact absurd (by rw [← h1]; simp) (hn rnd)
    | request v b => exact ⟨fun _ => ⟨[], v, b, t, rfl, by simp⟩, fun _ => by simp [callsBefore]⟩

theorem callsBefore_nodup (uses : List DigestUse) : ∀ n, (callsBefore n uses).Nodup ↔ NextBetween uses := by
  induction uses with
  | nil =>
    intro n
    refine ⟨fun _ pre mid post v b v' b' h => ?_, fun _ => List.nodup_nil⟩
    cases pre <;> cases h
  | cons u t ih =>
    intro n
    have hlift : NextBetween (u :: t) → NextBetween t := fun h pre mid post v b v' b' e =>
      h (u :: pre) mid post v b v' b' (by rw [e]; rfl)
    cases u with
    | next rnd =>
      show (callsBefore (n + 1) t).Nodup ↔ _
      rw [ih]
      refine ⟨fun h pre mid post v b v' b' e => ?_, hlift⟩
      cases pre with
      | nil => cases e
      | cons x pre =>
        injection e with e1 e2
        exact h pre mid post v b v' b' e2
    | request v0 b0 =>
      show (n :: callsBefore n t).Nodup ↔ _
      rw [List.nodup_cons, ih, callsBefore_mem]
      constructor
      · rintro ⟨h1, h2⟩ pre mid post v b v' b' e
        cases pre with
        | nil =>
          injection e with e1 e2
          apply Classical.byContradiction
          intro hno
          exact h1 ⟨mid, v', b', post, e2, fun rnd hr => hno ⟨rnd, hr⟩⟩
        | cons x pre =>
          injection e with e1 e2
          exact h2 pre mid post v b v' b' e2
      · intro h
        refine ⟨?_, hlift h⟩
        rintro ⟨mid, v, b, post, e, hn⟩
        obtain ⟨rnd, hr⟩ := h [] mid post v0 b0 v b (by rw [e]; rfl)
        exact hn rnd hr

/-- **C44**, exact law. For every challenge with a qop and every use of the digest: the requests carry numbers of which no two are
equal exactly if the program calls `Next` between any two requests. -/
theorem C44_iff (md5 : Bytes → Bytes) (rnd uri challenge user password : Bytes) (d0 : Digest)
    (h : newDigest uri challenge = .ok d0) (hb : d0.basic = false) (hq : d0.qop ≠ []) (uses : List DigestUse) :
    ∃ (f : AuthFunc) (d : Digest) (as : List Bytes) (ns : List Nat), authenticate md5 rnd d0 user password = .ok (f, d) ∧ valuesSent md5 f d uses = .ok as ∧
      as.length = ns.length ∧
      (∀ (k n : Nat), ns[k]? = some n → ∃ nc cnonce resp, hexNumber nc = n ∧
        as[k]? = some (authorization user d0.realm d0.nonce d0.uri d0.algorithm d0.opaque_ d0.qop nc cnonce resp)) ∧
      (ns.Nodup ↔ NextBetween uses) := by
  have hc := (newDigest_init h).2
  obtain ⟨d, h1, h2⟩ := authenticate_digest md5 rnd user password d0 hb hc
  have hcd : Counted d0 1 d := by
    refine ⟨h2.qop, ?_, (h2.nc hq).1.trans (by decide)⟩
    unfold authenticate at h1
    rw [if_neg (by simp [hb]), colonnade_ok, go_ok_bind] at h1
    dsimp only at h1
    unfold digestNext at h1
    rw [if_neg hq] at h1
    injection h1 with h1
    injection h1 with _ h1
    rw [← h1]
    show d0.count + 1 = 1
    rw [hc]
  obtain ⟨as, h3, h4, h5⟩ := values_counts md5 user hq uses 1 d hcd
  refine ⟨_, d, as, callsBefore 1 uses, h1, h3, h4, fun k n hk => ?_, callsBefore_nodup uses 1⟩
  obtain ⟨cn, resp, h6⟩ := h5 k n hk
  exact ⟨_, cn, resp, fmtHex8_number n, h6⟩

/-- Both cases occur. -/
example : NextBetween [.request b!"PLAY" [], .next [1], .request b!"PAUSE" []] ∧
    ¬ NextBetween [.request b!"PLAY" [], .request b!"PAUSE" []] := by
  rw [← callsBefore_nodup _ 1, ← callsBefore_nodup _ 1]
  decide

/-- A challenge that meets the hypotheses. -/
example : ∃ d0, newDigest b!"/a" b!"Digest realm=\"r\", nonce=\"n\", qop=auth" = .ok d0 ∧ d0.basic = false ∧ d0.qop ≠ [] :=
  ⟨{ uri := b!"/a", realm := b!"r", nonce := b!"n", qop := b!"auth", algorithm := b!"md5" }, by decide⟩

end Ouro
