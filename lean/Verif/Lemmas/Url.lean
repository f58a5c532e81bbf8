import Verif.Spec.Url
import Verif.Model.Dial
import Verif.Lemmas.Strings
/-! # Facts about URIs -/
namespace Ouro
open Spec

instance : DecidablePred Unreserved := fun c => by unfold Unreserved; infer_instance
instance : DecidablePred SubDelim := fun c => by unfold SubDelim; infer_instance
instance : DecidablePred PathByte := fun c => by unfold PathByte; infer_instance
instance : DecidablePred UserByte := fun c => by unfold UserByte; infer_instance

theorem cutLast_none {c : UInt8} {s : Bytes} (h : c ∉ s) : cutLast c s = none := by
  induction s with
  | nil => rfl
  | cons x xs ih =>
    simp only [List.mem_cons, not_or] at h
    rw [cutLast, ih h.2]
    exact if_neg (fun e => h.1 e.symm)

theorem cutLast_append {c : UInt8} (a : Bytes) {b : Bytes} (h : c ∉ b) : cutLast c (a ++ c :: b) = some (a, b) := by
  induction a with
  | nil => rw [List.nil_append, cutLast, cutLast_none h]; exact if_pos rfl
  | cons x xs ih => rw [List.cons_append, cutLast, ih]

theorem cutLast_some {c : UInt8} {s a b : Bytes} (h : cutLast c s = some (a, b)) : s = a ++ c :: b ∧ c ∉ b := by
  induction s generalizing a with
  | nil => cases h
  | cons x xs ih =>
    rw [cutLast] at h
    cases hc : cutLast c xs with
    | some p =>
      obtain ⟨a', b'⟩ := p
      rw [hc] at h
      simp only [Option.some.injEq, Prod.mk.injEq] at h
      obtain ⟨rfl, rfl⟩ := h
      obtain ⟨e, hn⟩ := ih hc
      exact ⟨by rw [e]; rfl, hn⟩
    | none =>
      rw [hc] at h
      by_cases hx : x = c
      · simp only [hx, if_true, Option.some.injEq, Prod.mk.injEq] at h
        obtain ⟨rfl, rfl⟩ := h
        refine ⟨by rw [hx]; rfl, ?_⟩
        intro hm
        obtain ⟨p, q, rfl, -⟩ : ∃ p q, xs = p ++ c :: q ∧ True := by
          obtain ⟨p, q, e⟩ := List.append_of_mem hm
          exact ⟨p, q, e, trivial⟩
        have : ∀ l : Bytes, cutLast c (l ++ c :: q) ≠ none := by
          intro l
          induction l with
          | nil =>
            rw [List.nil_append, cutLast]
            cases cutLast c q with
            | none => simp
            | some r => simp
          | cons y ys ih2 =>
            rw [List.cons_append, cutLast]
            cases hq : cutLast c (ys ++ c :: q) with
            | none => exact absurd hq ih2
            | some r => simp
        exact this p hc
      · simp only [hx, if_false] at h
        cases h

theorem cutAt_none {c : UInt8} {s : Bytes} (h : c ∉ s) : cutAt c s = (s, []) := by
  rw [cutAt, cut_none.mpr h]; rfl

theorem cutAt_append {c : UInt8} {a : Bytes} (b : Bytes) (h : c ∉ a) : cutAt c (a ++ c :: b) = (a, b) := by
  rw [cutAt, cut_append b h]; rfl

/-! ## Escapes -/

theorem hexVal_lt : ∀ c : UInt8, ∀ x, hexVal c = some x → x < 16 := by
  have : ∀ c : UInt8, (hexVal c).all (· < 16) = true := forall_u8 (by decide +kernel)
  intro c x h
  have := this c
  rw [h] at this
  simpa using this

theorem upperHex_val : ∀ n : Fin 16, hexVal (upperHex n.val) = some n.val := by decide

theorem unescape_byte {m : UrlMode} {c : UInt8} (h1 : c ≠ 37) (h2 : plainOk m c = true) (s : Bytes) :
    urlUnescape m (c :: s) = (urlUnescape m s).map (c :: ·) := by
  rcases s with _ | ⟨a, _ | ⟨b, t⟩⟩ <;> simp only [urlUnescape, if_neg h1, if_pos h2]

theorem unescape_esc {m : UrlMode} {a b : UInt8} {x y : Nat} (ha : hexVal a = some x) (hb : hexVal b = some y)
    (h : escapeOk m a b x y = true) (s : Bytes) :
    urlUnescape m (37 :: a :: b :: s) = (urlUnescape m s).map (UInt8.ofNat (x * 16 + y) :: ·) := by
  rw [urlUnescape, if_pos rfl]
  simp only [ha, hb]
  rw [if_pos h]

/-- In a path, a user name or a fragment, everything but a broken escape is accepted. -/
def Lenient (m : UrlMode) : Prop := m = .path ∨ m = .user ∨ m = .fragment

theorem lenient_plain {m : UrlMode} (h : Lenient m) (c : UInt8) : plainOk m c = true := by
  rcases h with rfl | rfl | rfl <;> rfl

theorem lenient_escape {m : UrlMode} (h : Lenient m) (a b : UInt8) (x y : Nat) : escapeOk m a b x y = true := by
  rcases h with rfl | rfl | rfl <;> rfl

theorem pct_unescape {m : UrlMode} (hm : Lenient m) {ok : UInt8 → Prop} (hok : ¬ ok 37) {s d : Bytes} (h : Pct ok s d) :
    urlUnescape m s = some d := by
  induction h with
  | nil => rfl
  | @byte c s d hc h ih =>
    rw [unescape_byte (fun e => hok (e ▸ hc)) (lenient_plain hm c), ih]
    rfl
  | esc ha hb h ih =>
    rw [unescape_esc ha hb (lenient_escape hm _ _ _ _), ih, Nat.mul_comm]
    rfl

/-- A byte of the text is one the grammar allows, a `%` or a digit. -/
theorem pct_bytes {ok : UInt8 → Prop} {s d : Bytes} (h : Pct ok s d) : ∀ c ∈ s, ok c ∨ c = 37 ∨ (hexVal c).isSome := by
  induction h with
  | nil => intro c hc; cases hc
  | @byte c s d hc h ih =>
    intro x hx
    rcases List.mem_cons.mp hx with rfl | hx
    · exact .inl hc
    · exact ih x hx
  | @esc a b x y s d ha hb h ih =>
    intro z hz
    simp only [List.mem_cons] at hz
    rcases hz with rfl | rfl | rfl | hz
    · exact .inr (.inl rfl)
    · exact .inr (.inr (by rw [ha]; rfl))
    · exact .inr (.inr (by rw [hb]; rfl))
    · exact ih z hz

theorem escape1_unescape (m : UrlMode) (hm : Lenient m) (c : UInt8) (s : Bytes) (hc : c = 37 → shouldEscape m c = true) :
    urlUnescape m (escape1 m c ++ s) = (urlUnescape m s).map (c :: ·) := by
  rw [escape1]
  by_cases h : shouldEscape m c = true
  · rw [if_pos h]
    have hx : hexVal (upperHex (c.toNat / 16)) = some (c.toNat / 16) :=
      upperHex_val ⟨c.toNat / 16, by have := c.toNat_lt; omega⟩
    have hy : hexVal (upperHex (c.toNat % 16)) = some (c.toNat % 16) := upperHex_val ⟨c.toNat % 16, by omega⟩
    show urlUnescape m (37 :: _ :: _ :: s) = _
    rw [unescape_esc hx hy (lenient_escape hm _ _ _ _)]
    have : UInt8.ofNat (c.toNat / 16 * 16 + c.toNat % 16) = c := by
      rw [Nat.div_add_mod']; simp
    rw [this]
  · rw [if_neg h]
    exact unescape_byte (fun e => h (hc e)) (lenient_plain hm c) s

theorem escape_pct : ∀ m : UrlMode, m = .path ∨ m = .user ∨ m = .fragment → shouldEscape m 37 = true := by
  intro m h; rcases h with rfl | rfl | rfl <;> decide

/-- Escaping loses nothing. -/
theorem unescape_escape {m : UrlMode} (hm : Lenient m) (s : Bytes) : urlUnescape m (urlEscape m s) = some s := by
  induction s with
  | nil => rfl
  | cons c s ih =>
    show urlUnescape m (escape1 m c ++ urlEscape m s) = _
    rw [escape1_unescape m hm c _ (fun e => e ▸ escape_pct m hm), ih]
    rfl

/-! ## Classes of bytes -/

/-- The bytes of a host and a port. -/
def HostByte (c : UInt8) : Prop := Unreserved c ∨ c = 58 ∨ c = 91 ∨ c = 93

instance : DecidablePred HostByte := fun c => by unfold HostByte; infer_instance

theorem hex_unreserved : ∀ c : UInt8, (hexVal c).isSome = true → Unreserved c := forall_u8 (by decide +kernel)

theorem unreserved_byte : ∀ c : UInt8, Unreserved c → c ≠ 58 ∧ c ≠ 91 ∧ c ≠ 93 ∧ c ≠ 37 ∧ c ≠ 64 := forall_u8 (by decide +kernel)

theorem hostByte_byte : ∀ c : UInt8, HostByte c → isCtl c = false ∧ c ≠ 35 ∧ c ≠ 47 ∧ c ≠ 63 ∧ c ≠ 64 ∧ c ≠ 37 ∧
    shouldEscape .host c = false := forall_u8 (by decide +kernel)

theorem userByte_byte : ∀ c : UInt8, (UserByte c ∨ c = 58 ∨ c = 37) → isCtl c = false ∧ c ≠ 35 ∧ c ≠ 47 ∧ c ≠ 63 ∧ c ≠ 64 ∧
    (isAlnum c || c ∈ b!"-._:~!$&'()*+,;=%@") = true := forall_u8 (by decide +kernel)

theorem userByte_ne : ∀ c : UInt8, UserByte c → c ≠ 58 ∧ c ≠ 37 := forall_u8 (by decide +kernel)

theorem pathByte_byte : ∀ c : UInt8, (PathByte c ∨ c = 37) → isCtl c = false ∧ c ≠ 35 ∧ c ≠ 63 ∧
    (c ∈ b!"!$&'()*+,;=:@[]%" || !shouldEscape .path c) = true := forall_u8 (by decide +kernel)

theorem digit_unreserved : ∀ c : UInt8, 48 ≤ c ∧ c ≤ 57 → Unreserved c ∧ isDigit c = true ∧ c ≠ 58 ∧ c ≠ 91 ∧ c ≠ 93 :=
  forall_u8 (by decide +kernel)

/-! ## The host -/

theorem host_bytes {h : Bytes} (hh : Host h) : ∀ c ∈ h, HostByte c := by
  intro c hc
  rcases hh with ⟨-, hu⟩ | ⟨v, rfl, hv⟩
  · exact .inl (hu c hc)
  · rcases List.mem_append.mp hc with hc | hc
    · rcases List.mem_cons.mp hc with rfl | hc
      · exact .inr (.inr (.inl rfl))
      · rcases hv c hc with h | rfl | rfl
        · exact .inl (hex_unreserved c h)
        · exact .inr (.inl rfl)
        · exact .inl (by decide)
    · exact .inr (.inr (.inr (List.mem_singleton.mp hc)))

theorem port_bytes {p : Option Bytes} (hp : ∀ q, p = some q → ∀ c ∈ q, 48 ≤ c ∧ c ≤ 57) :
    ∀ c ∈ portPart p, HostByte c := by
  intro c hc
  cases p with
  | none => cases hc
  | some q =>
    rcases List.mem_cons.mp hc with rfl | hc
    · exact .inr (.inl rfl)
    · exact .inl (digit_unreserved c (hp q rfl c hc)).1

theorem unescape_plain {s : Bytes} (h : ∀ c ∈ s, HostByte c) : urlUnescape .host s = some s := by
  induction s with
  | nil => rfl
  | cons c s ih =>
    have hb := hostByte_byte c (h c List.mem_cons_self)
    rw [unescape_byte hb.2.2.2.2.2.1 (by simp only [plainOk, hb.2.2.2.2.2.2]; simp), ih fun x hx => h x (List.mem_cons_of_mem _ hx)]
    rfl

theorem escape_plain {m : UrlMode} {s : Bytes} (h : ∀ c ∈ s, shouldEscape m c = false) : urlEscape m s = s := by
  induction s with
  | nil => rfl
  | cons c s ih =>
    show escape1 m c ++ urlEscape m s = _
    rw [ih fun x hx => h x (List.mem_cons_of_mem _ hx), escape1, h c List.mem_cons_self]
    rfl

theorem cutZone_none {s : Bytes} (h : 37 ∉ s) : cutZone s = none := by
  induction s with
  | nil => rfl
  | cons c s ih =>
    simp only [List.mem_cons, not_or] at h
    rw [cutZone, if_neg, ih h.2]
    rintro ⟨t, e⟩
    simp only [List.cons_append, List.cons.injEq] at e
    exact h.1 e.1

theorem parseHost_plain {h : Bytes} {p : Option Bytes} (hh : Host h)
    (hp : ∀ q, p = some q → ∀ c ∈ q, 48 ≤ c ∧ c ≤ 57) : parseHost (h ++ portPart p) = some (h ++ portPart p) := by
  have hb : ∀ c ∈ h ++ portPart p, HostByte c := fun c hc =>
    (List.mem_append.mp hc).elim (host_bytes hh c) (port_bytes hp c)
  have hd : ∀ q, p = some q → q.all isDigit = true := fun q e =>
    List.all_eq_true.mpr fun c hc => (digit_unreserved c (hp q e c hc)).2.1
  rw [parseHost]
  rcases hh with ⟨hne, hu⟩ | ⟨v, rfl, hv⟩
  · rw [if_neg, unescape_plain hb]
    · cases p with
      | none =>
        rw [show h ++ portPart none = h from List.append_nil h,
          cutLast_none fun hm => (unreserved_byte _ (hu _ hm)).1 rfl]
      | some q =>
        rw [show h ++ portPart (some q) = h ++ 58 :: q from rfl,
          cutLast_append h fun hm => (digit_unreserved _ (hp q rfl _ hm)).2.2.1 rfl]
        simp only [hd q rfl, if_true]
    · cases h with
      | nil => exact absurd rfl hne
      | cons c t =>
        intro e
        exact (unreserved_byte _ (hu c List.mem_cons_self)).2.1 (Option.some.inj e)
  · rw [if_pos (by rfl), show (91 :: v ++ [93]) ++ portPart p = (91 :: v) ++ 93 :: portPart p by simp,
      cutLast_append]
    · simp only
      rw [if_pos, cutZone_none]
      · simp only
        rw [← show (91 :: v ++ [93]) ++ portPart p = (91 :: v) ++ 93 :: portPart p by simp]
        exact unescape_plain hb
      · intro hm
        rcases List.mem_cons.mp hm with h | h
        · cases h
        · rcases hv _ h with h | h | h <;> revert h <;> decide
      · cases p with
        | none => rfl
        | some q =>
          show (decide ((58 : UInt8) = 58) && q.all isDigit) = true
          rw [hd q rfl]; rfl
    · intro hm
      cases p with
      | none => cases hm
      | some q =>
        rcases List.mem_cons.mp hm with h | h
        · cases h
        · exact (digit_unreserved _ (hp q rfl _ h)).2.2.2.2 rfl

theorem split_ok {h : Bytes} {p : Option Bytes} (hh : Host h)
    (hp : ∀ q, p = some q → ∀ c ∈ q, 48 ≤ c ∧ c ≤ 57) : splitHostPortOk (h ++ portPart p) = p.isSome := by
  rcases hh with ⟨hne, hu⟩ | ⟨v, rfl, hv⟩
  · cases p with
    | none =>
      rw [show h ++ portPart none = h from List.append_nil h, splitHostPortOk,
        cutLast_none fun hm => (unreserved_byte _ (hu _ hm)).1 rfl]
      rfl
    | some q =>
      have hq : ∀ c ∈ q, c ≠ 58 ∧ c ≠ 91 ∧ c ≠ 93 := fun c hc => (digit_unreserved _ (hp q rfl _ hc)).2.2
      rw [show h ++ portPart (some q) = h ++ 58 :: q from rfl, splitHostPortOk, cutLast_append h fun hm => (hq _ hm).1 rfl]
      simp only
      rw [if_neg]
      · have h1 : h.contains 58 = false := by
          rw [List.contains_eq_mem, decide_eq_false_iff_not]; exact fun hm => (unreserved_byte _ (hu _ hm)).1 rfl
        have h2 : (h ++ 58 :: q).contains 91 = false := by
          rw [List.contains_eq_mem, decide_eq_false_iff_not]
          intro hm
          rcases List.mem_append.mp hm with hm | hm
          · exact (unreserved_byte _ (hu _ hm)).2.1 rfl
          · rcases List.mem_cons.mp hm with e | hm
            · cases e
            · exact (hq _ hm).2.1 rfl
        have h3 : (h ++ 58 :: q).contains 93 = false := by
          rw [List.contains_eq_mem, decide_eq_false_iff_not]
          intro hm
          rcases List.mem_append.mp hm with hm | hm
          · exact (unreserved_byte _ (hu _ hm)).2.2.1 rfl
          · rcases List.mem_cons.mp hm with e | hm
            · cases e
            · exact (hq _ hm).2.2 rfl
        rw [h1, h2, h3]; rfl
      · cases h with
        | nil => exact absurd rfl hne
        | cons c t =>
          intro e
          exact (unreserved_byte _ (hu c List.mem_cons_self)).2.1 (Option.some.inj e)
  · have hvb : ∀ c ∈ v, c ≠ 91 ∧ c ≠ 93 := by
      intro c hc
      rcases hv c hc with h | rfl | rfl
      · exact ⟨(unreserved_byte _ (hex_unreserved c h)).2.1, (unreserved_byte _ (hex_unreserved c h)).2.2.1⟩
      · decide
      · decide
    have hv93 : (93 : UInt8) ∉ 91 :: v := by
      intro hm
      rcases List.mem_cons.mp hm with e | hm
      · cases e
      · exact (hvb _ hm).2 rfl
    cases p with
    | none =>
      rw [show (91 :: v ++ [93]) ++ portPart none = (91 :: v) ++ 93 :: [] by simp [portPart], splitHostPortOk]
      cases hc : cutLast 58 (91 :: v ++ [93]) with
      | none => rfl
      | some r =>
        obtain ⟨a, b⟩ := r
        simp only
        rw [if_pos (by rfl), cut_append [] hv93]
        simp only
        have e := (cutLast_some hc).1
        have : ¬ a = (91 :: v) ++ [93] := by
          intro ea
          rw [ea] at e
          have := congrArg List.length e
          simp at this
        rw [decide_eq_false this]
        rfl
    | some q =>
      have hq : ∀ c ∈ q, c ≠ 58 ∧ c ≠ 91 ∧ c ≠ 93 := fun c hc => (digit_unreserved _ (hp q rfl _ hc)).2.2
      rw [show (91 :: v ++ [93]) ++ portPart (some q) = (91 :: v ++ [93]) ++ 58 :: q from rfl, splitHostPortOk,
        cutLast_append _ fun hm => (hq _ hm).1 rfl]
      simp only
      rw [if_pos (by rfl), show (91 :: v ++ [93]) ++ 58 :: q = (91 :: v) ++ 93 :: 58 :: q by simp, cut_append _ hv93]
      simp only
      have h2 : (((91 :: v) ++ 93 :: 58 :: q).drop 1).contains 91 = false := by
        rw [List.contains_eq_mem, decide_eq_false_iff_not]
        intro hm
        rcases List.mem_append.mp (show 91 ∈ v ++ 93 :: 58 :: q from hm) with hm | hm
        · exact (hvb _ hm).1 rfl
        · simp only [List.mem_cons] at hm
          rcases hm with e | e | hm
          · cases e
          · cases e
          · exact (hq _ hm).2.1 rfl
      have h3 : q.contains 93 = false := by
        rw [List.contains_eq_mem, decide_eq_false_iff_not]; exact fun hm => (hq _ hm).2.2 rfl
      rw [h2, h3]
      simp

theorem dialAddr_plain {h : Bytes} {p : Option Bytes} (hh : Host h)
    (hp : ∀ q, p = some q → ∀ c ∈ q, 48 ≤ c ∧ c ≤ 57) :
    dialAddr (h ++ portPart p) = h ++ 58 :: p.getD b!"554" := by
  rw [dialAddr, split_ok hh hp]
  cases p with
  | none =>
    show h ++ portPart none ++ b!":554" = _
    rw [show h ++ portPart none = h from List.append_nil h]
    rfl
  | some q => rfl

end Ouro
