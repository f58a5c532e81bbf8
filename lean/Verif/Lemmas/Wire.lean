import Verif.Spec.Wire
import Verif.Props.Message
/-! # Lemmas about reading a connection -/
namespace Ouro
open Spec

theorem cutHead_other {c : UInt8} (t : Bytes) (h : c ≠ 13) : cutHead (c :: t) = (cutHead t).map fun p => (c :: p.1, p.2) := by
  rw [cutHead, if_neg]
  intro hp
  obtain ⟨r, hr⟩ := hp
  simp only [List.cons_append, List.cons.injEq] at hr
  exact h hr.1.symm

theorem cutHead_text (a t : Bytes) (h : (13 : UInt8) ∉ a) : cutHead (a ++ t) = (cutHead t).map fun p => (a ++ p.1, p.2) := by
  induction a with
  | nil => cases hc : cutHead t <;> simp [hc]
  | cons x a ih =>
    rw [List.cons_append, cutHead_other _ (fun e => h (by simp [e])), ih (fun hm => h (by simp [hm]))]
    cases cutHead t <;> simp

/-- A line end that is not followed by another one. -/
theorem cutHead_line (t : Bytes) (h : ¬ [13, 10] <+: t) : cutHead (13 :: 10 :: t) = (cutHead t).map fun p => (13 :: 10 :: p.1, p.2) := by
  rw [cutHead, if_neg, cutHead_other _ (by decide)]
  · cases cutHead t <;> simp
  · rintro ⟨r, hr⟩
    simp only [List.cons_append, List.cons.injEq, true_and, List.nil_append] at hr
    exact h ⟨r, by simp [hr]⟩

theorem cutHead_end (t : Bytes) : cutHead (13 :: 10 :: 13 :: 10 :: t) = some ([13, 10, 13, 10], t) := by
  rw [cutHead, if_pos ⟨t, rfl⟩]; rfl

/-- Lines, none empty, then an empty one. -/
theorem cutHead_lines (l : Bytes) (ls : List Bytes) (t : Bytes) (h : ∀ x ∈ l :: ls, x ≠ [] ∧ (13 : UInt8) ∉ x) :
    cutHead ((l :: ls).flatMap (· ++ [13, 10]) ++ 13 :: 10 :: t) = some ((l :: ls).flatMap (· ++ [13, 10]) ++ [13, 10], t) := by
  induction ls generalizing l with
  | nil =>
    simp only [List.flatMap_cons, List.flatMap_nil, List.append_nil, List.append_assoc, List.cons_append, List.nil_append]
    rw [cutHead_text _ _ (h l (by simp)).2, cutHead_end]
    rfl
  | cons m ls ih =>
    have hm := ih m (fun x hx => h x (List.mem_cons_of_mem _ hx))
    rw [List.flatMap_cons, List.append_assoc, List.append_assoc]
    rw [cutHead_text _ _ (h l (by simp)).2, List.cons_append, List.cons_append, List.nil_append, cutHead_line, hm]
    · simp
    · rintro ⟨r, hr⟩
      have h1 := h m (by simp)
      cases m with
      | nil => exact h1.1 rfl
      | cons c m =>
        simp only [List.flatMap_cons, List.cons_append, List.cons.injEq] at hr
        exact h1.2 (by simp [← hr.1])

/-- A request all of whose texts are fit for the wire. -/
structure CleanReq (r : Request) : Prop where
  verb : IsWord r.verb
  uri : IsWord r.uri
  header : ∀ e ∈ r.header, (58 : UInt8) ∉ e.1 ∧ (13 : UInt8) ∉ e.1 ∧ (13 : UInt8) ∉ e.2
  session : (13 : UInt8) ∉ r.session
  auth : (13 : UInt8) ∉ r.auth

theorem itoa_noCR (i : Int) : (13 : UInt8) ∉ itoa i := by
  intro hm
  rcases itoa_bytes i _ hm with h | h
  · exact absurd h (by decide)
  · exact absurd h (by decide)

theorem cutHead_pack {r : Request} (h : CleanReq r) (order : Header) (hord : order.Perm r.header) (t : Bytes) :
    cutHead (r.pack order ++ t) = some (r.pack order, t) := by
  have hl : ∀ e ∈ packLines r order, (13 : UInt8) ∉ e.1 ∧ (13 : UInt8) ∉ e.2 := by
    intro e he
    unfold packLines at he
    simp only [List.mem_append] at he
    rcases he with (((he | he) | he) | he) | he
    · rw [List.mem_singleton] at he; subst he; exact ⟨show (13 : UInt8) ∉ b!"CSeq" by decide, itoa_noCR _⟩
    · exact (h.header e (hord.mem_iff.1 he)).2
    · split at he
      · rw [List.mem_singleton] at he; subst he; exact ⟨show (13 : UInt8) ∉ b!"Session" by decide, h.session⟩
      · cases he
    · split at he
      · rw [List.mem_singleton] at he; subst he; exact ⟨show (13 : UInt8) ∉ b!"Authorization" by decide, h.auth⟩
      · cases he
    · simp only [List.mem_cons, List.not_mem_nil, or_false] at he
      rcases he with rfl | rfl <;> decide
  have e : r.pack order = ((r.verb ++ b!" " ++ r.uri ++ b!" RTSP/1.0") :: (packLines r order).map (fun e => e.1 ++ 58 :: 32 :: e.2)).flatMap (· ++ [13, 10]) ++ [13, 10] := by
    rw [pack_lines, List.flatMap_cons, List.flatMap_map]
    simp [headerLine, colsp, crnl]
  rw [e, List.append_assoc]
  show cutHead (_ ++ 13 :: 10 :: t) = _
  rw [cutHead_lines]
  intro x hx
  rcases List.mem_cons.1 hx with rfl | hx
  · refine ⟨by simp, ?_⟩
    intro hm
    simp only [List.mem_append] at hm
    rcases hm with ((hm | hm) | hm) | hm
    · exact h.verb.2 hm
    · exact absurd hm (by decide)
    · exact h.uri.2 hm
    · exact absurd hm (by decide)
  · obtain ⟨e, he, rfl⟩ := List.mem_map.1 hx
    refine ⟨by simp, ?_⟩
    intro hm
    simp only [List.mem_append, List.mem_cons] at hm
    rcases hm with hm | hm | hm | hm
    · exact (hl e he).1 hm
    · exact absurd hm (by decide)
    · exact absurd hm (by decide)
    · exact (hl e he).2 hm

theorem readSome_step {n : Nat} {text head rest : Bytes} {m : Received} (hc : cutHead text = some (head, rest)) (hr : serverRead head = some m) :
    readSome (n + 1) text = (m :: (readSome n rest).1, (readSome n rest).2) := by
  rw [readSome, hc]; dsimp only; rw [hr]

theorem cutHead_append {text head rest : Bytes} (h : cutHead text = some (head, rest)) : text = head ++ rest ∧ 4 ≤ head.length := by
  induction text generalizing head with
  | nil => cases h
  | cons c t ih =>
    rw [cutHead] at h
    split at h
    · rename_i hp
      have hlen := hp.length_le
      injection h with h
      injection h with h1 h2
      subst h1 h2
      exact ⟨(List.take_append_drop 4 _).symm, by rw [List.length_take]; simp only [List.length_cons, List.length_nil] at hlen ⊢; omega⟩
    · cases hc : cutHead t with
      | none => rw [hc] at h; cases h
      | some p =>
        rw [hc] at h
        simp only [Option.map_some, Option.some.injEq, Prod.mk.injEq] at h
        obtain ⟨rfl, rfl⟩ := h
        obtain ⟨e, hl⟩ := ih hc
        exact ⟨by rw [List.cons_append, ← e], by simp only [List.length_cons]; omega⟩

/-- The number of steps does not matter if it is enough. -/
theorem readSome_enough : ∀ (n m : Nat) (text : Bytes), text.length ≤ n → text.length ≤ m → readSome n text = readSome m text := by
  intro n
  induction n with
  | zero =>
    intro m text hn _
    have : text = [] := List.length_eq_zero_iff.1 (by omega)
    subst this
    cases m <;> rfl
  | succ n ih =>
    intro m text hn hm
    cases m with
    | zero =>
      have : text = [] := List.length_eq_zero_iff.1 (by omega)
      subst this; rfl
    | succ m =>
      rw [readSome, readSome]
      cases hc : cutHead text with
      | none => rfl
      | some p =>
        obtain ⟨head, rest⟩ := p
        obtain ⟨e, hl⟩ := cutHead_append hc
        have hlen := congrArg List.length e
        rw [List.length_append] at hlen
        dsimp only
        rw [ih m rest (by omega) (by omega)]

theorem serverReads_step {text head rest : Bytes} {m : Received} (hc : cutHead text = some (head, rest)) (hr : serverRead head = some m) :
    serverReads text = (m :: (serverReads rest).1, (serverReads rest).2) := by
  obtain ⟨e, hl⟩ := cutHead_append hc
  have hlen := congrArg List.length e
  rw [List.length_append] at hlen
  unfold serverReads
  rw [readSome_enough text.length (text.length + 1) text (by omega) (by omega), readSome_step hc hr,
    readSome_enough text.length rest.length rest (by omega) (by omega)]

end Ouro
