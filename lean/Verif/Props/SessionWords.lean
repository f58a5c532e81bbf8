import Verif.Spec.SessionWords
import Verif.Lemmas.Session
import Verif.Props.ConcurrentSetup
/-! # C128: the session identifier when several goroutines use it -/
namespace Ouro
open Spec

theorem wturns_snoc (s : Racing) (ts : List WTurn) (t : WTurn) : wturns s (ts ++ [t]) = wturn (wturns s ts) t := by
  unfold wturns; rw [List.foldl_append]; rfl

theorem sessionHeaders_snoc (ts : List WTurn) (t : WTurn) : sessionHeaders (ts ++ [t]) = sessionHeaders ts ++ sessionHeaders [t] := by
  induction ts with
  | nil => rfl
  | cons a ts ih =>
    cases a <;> simp only [List.cons_append, sessionHeaders, ih]
    split <;> simp

theorem wturn_response (s : Racing) (v : Bytes) : wturn s (.response v) =
    if s.ptrLeft = none ∧ s.lenLeft = none ∧ v ≠ [] then
      { s with headers := s.headers ++ [v], ptrLeft := some (s.headers.length + 1), lenLeft := some (identifier v).length }
    else s := by
  obtain ⟨f, t, h1, h2⟩ := session_head v
  unfold wturn
  dsimp only
  rw [h1, h2]
  rfl

/-- The two words are those of one identifier. -/
def Proper (hs : List Bytes) (p l : Nat) : Prop := (p = 0 ∧ l = 0) ∨ ∃ k v, p = k + 1 ∧ hs[k]? = some v ∧ l = (identifier v).length

theorem Proper.grow {hs : List Bytes} {p l : Nat} (h : Proper hs p l) (v : Bytes) : Proper (hs ++ [v]) p l := by
  rcases h with h | ⟨k, u, h1, h2, h3⟩
  · exact .inl h
  · exact .inr ⟨k, u, h1, by rw [List.getElem?_append_left (List.getElem?_eq_some_iff.1 h2).1]; exact h2, h3⟩

theorem identifier_prefix (v : Bytes) : identifier v = v.take (identifier v).length :=
  List.prefix_iff_eq_take.1 (List.takeWhile_prefix _)

theorem identifier_le (v : Bytes) : (identifier v).length ≤ v.length := (List.takeWhile_prefix _).length_le

theorem Proper.read {s : Racing} {i p l : Nat} (h : Proper s.headers p l) (hr : s.reads[i]? = some (some p, some l)) :
    s.read i = some [] ∨ ∃ v ∈ s.headers, s.read i = some (identifier v) := by
  unfold Racing.read
  rw [hr]
  rcases h with ⟨rfl, rfl⟩ | ⟨k, v, rfl, h2, rfl⟩
  · exact .inl rfl
  · right
    refine ⟨v, List.mem_of_getElem? h2, ?_⟩
    cases hl : (identifier v).length with
    | zero => rw [List.length_eq_zero_iff.1 hl]; rfl
    | succ n =>
      simp only [h2]
      rw [if_pos (by rw [← hl]; exact identifier_le v), ← hl, ← identifier_prefix]

/-! ## Kept apart -/

structure Unmixed (s : Racing) : Prop where
  now : s.ptrLeft = none → s.lenLeft = none → Proper s.headers s.ptr s.len
  before : ∀ p l, s.ptrLeft = some p → s.lenLeft = some l → Proper s.headers s.ptr s.len ∧ Proper s.headers p l
  ptrFirst : ∀ l, s.ptrLeft = none → s.lenLeft = some l → Proper s.headers s.ptr l
  lenFirst : ∀ p, s.ptrLeft = some p → s.lenLeft = none → Proper s.headers p s.len
  full : ∀ p l, (some p, some l) ∈ s.reads → Proper s.headers p l
  halfPtr : ∀ p, (some p, none) ∈ s.reads → p = s.ptr
  halfLen : ∀ l, (none, some l) ∈ s.reads → l = s.len

theorem mem_set {α : Type} {l : List α} {i : Nat} {a b : α} (h : b ∈ l.set i a) : b = a ∨ b ∈ l := by
  obtain ⟨j, hj⟩ := List.mem_iff_getElem?.1 h
  by_cases e : i = j
  · subst e
    rw [List.getElem?_set_self'] at hj
    cases hl : l[i]? with
    | none => rw [hl] at hj; cases hj
    | some x => rw [hl] at hj; injection hj with hj; exact .inl hj.symm
  · rw [List.getElem?_set_ne e] at hj; exact .inr (List.mem_of_getElem? hj)

theorem Unmixed.step {s : Racing} (h : Unmixed s) (t : WTurn) (hk : HalfWritten s → ¬ HalfRead s) (hk' : HalfWritten (wturn s t) → ¬ HalfRead (wturn s t)) :
    Unmixed (wturn s t) := by
  have noHalf : HalfWritten (wturn s t) → ∀ r ∈ (wturn s t).reads, ¬ ((r.1 = none ∧ r.2 ≠ none) ∨ (r.1 ≠ none ∧ r.2 = none)) :=
    fun hw r hr hx => hk' hw ⟨r, hr, hx⟩
  have noHalf0 : HalfWritten s → ∀ r ∈ s.reads, ¬ ((r.1 = none ∧ r.2 ≠ none) ∨ (r.1 ≠ none ∧ r.2 = none)) :=
    fun hw r hr hx => hk hw ⟨r, hr, hx⟩
  obtain ⟨now, before, ptrFirst, lenFirst, full, halfPtr, halfLen⟩ := h
  cases t with
  | response v =>
    rw [wturn_response] at *
    split
    · rename_i hc
      obtain ⟨h1, h2, h3⟩ := hc
      refine ⟨nofun, ?_, nofun, nofun, fun p l hm => (full p l hm).grow v, halfPtr, halfLen⟩
      intro p l hp hl
      injection hp with hp
      injection hl with hl
      exact ⟨(now h1 h2).grow v, .inr ⟨s.headers.length, v, hp.symm, by simp, hl.symm⟩⟩
    · exact ⟨now, before, ptrFirst, lenFirst, full, halfPtr, halfLen⟩
  | storePtr =>
    cases hp : s.ptrLeft with
    | none =>
      have e : wturn s .storePtr = s := by unfold wturn; simp only [hp]
      rw [e]; exact ⟨now, before, ptrFirst, lenFirst, full, halfPtr, halfLen⟩
    | some p =>
      have e : wturn s .storePtr = { s with ptr := p, ptrLeft := none } := by unfold wturn; simp only [hp]
      rw [e] at noHalf ⊢
      clear e hk'
      cases hl : s.lenLeft with
      | none =>
        refine ⟨fun _ _ => lenFirst p hp hl, nofun, nofun, nofun, full, ?_, halfLen⟩
        intro q hq
        exact absurd (.inr ⟨by simp, rfl⟩) (noHalf0 (.inr ⟨by simp [hp], hl⟩) _ hq)
      | some l =>
        have hw : HalfWritten { s with ptr := p, ptrLeft := none } := .inl ⟨rfl, by simp [hl]⟩
        refine ⟨nofun, nofun, ?_, nofun, full, ?_, ?_⟩
        · intro m _ e
          exact (before p m hp (hl.trans e)).2
        · intro q hq; exact absurd (.inr ⟨by simp, rfl⟩) (noHalf hw _ hq)
        · intro q hq; exact absurd (.inl ⟨rfl, by simp⟩) (noHalf hw _ hq)
  | storeLen =>
    cases hl : s.lenLeft with
    | none =>
      have e : wturn s .storeLen = s := by unfold wturn; simp only [hl]
      rw [e]; exact ⟨now, before, ptrFirst, lenFirst, full, halfPtr, halfLen⟩
    | some l =>
      have e : wturn s .storeLen = { s with len := l, lenLeft := none } := by unfold wturn; simp only [hl]
      rw [e] at noHalf ⊢
      clear e hk'
      cases hp : s.ptrLeft with
      | none =>
        refine ⟨fun _ _ => ptrFirst l hp hl, nofun, nofun, nofun, full, halfPtr, ?_⟩
        intro q hq
        exact absurd (.inl ⟨rfl, by simp⟩) (noHalf0 (.inl ⟨hp, by simp [hl]⟩) _ hq)
      | some p =>
        have hw : HalfWritten { s with len := l, lenLeft := none } := .inr ⟨by simp [hp], rfl⟩
        refine ⟨nofun, nofun, nofun, ?_, full, ?_, ?_⟩
        · intro m e _
          exact (before m l (hp.trans e) hl).2
        · intro q hq; exact absurd (.inr ⟨by simp, rfl⟩) (noHalf hw _ hq)
        · intro q hq; exact absurd (.inl ⟨rfl, by simp⟩) (noHalf hw _ hq)
  | enqueue =>
    refine ⟨now, before, ptrFirst, lenFirst, ?_, ?_, ?_⟩
    · intro p l hm; rcases List.mem_append.1 hm with hm | hm
      · exact full p l hm
      · simp at hm
    · intro p hm; rcases List.mem_append.1 hm with hm | hm
      · exact halfPtr p hm
      · simp at hm
    · intro p hm; rcases List.mem_append.1 hm with hm | hm
      · exact halfLen p hm
      · simp at hm
  | loadPtr i =>
    unfold wturn at *
    dsimp only at *
    split
    · rename_i l hi
      rw [hi] at noHalf
      dsimp only at noHalf
      have hmem := List.mem_of_getElem? hi
      refine ⟨now, before, ptrFirst, lenFirst, ?_, ?_, ?_⟩
      · intro p m hm
        rcases mem_set hm with hm | hm
        · injection hm with e1 e2
          injection e1 with e1
          subst e1
          subst e2
          have hw : ¬ HalfWritten s := fun hw => noHalf0 hw _ hmem (.inl ⟨rfl, by simp⟩)
          have hlen := halfLen m hmem
          subst hlen
          show Proper s.headers s.ptr s.len
          cases hp : s.ptrLeft with
          | none =>
            cases hl : s.lenLeft with
            | none => exact now hp hl
            | some x => exact absurd (.inl ⟨hp, by simp [hl]⟩) hw
          | some y =>
            cases hl : s.lenLeft with
            | none => exact absurd (.inr ⟨by simp [hp], hl⟩) hw
            | some x => exact (before y x hp hl).1
        · exact full p m hm
      · intro p hm
        rcases mem_set hm with hm | hm
        · injection hm with e1 e2; injection e1
        · exact halfPtr p hm
      · intro m hm
        rcases mem_set hm with hm | hm
        · injection hm with e1 e2; cases e1
        · exact halfLen m hm
    · exact ⟨now, before, ptrFirst, lenFirst, full, halfPtr, halfLen⟩
  | loadLen i =>
    unfold wturn at *
    dsimp only at *
    split
    · rename_i q hi
      have hmem := List.mem_of_getElem? hi
      refine ⟨now, before, ptrFirst, lenFirst, ?_, ?_, ?_⟩
      · intro p m hm
        rcases mem_set hm with hm | hm
        · injection hm with e1 e2
          injection e2 with e2
          subst e1
          subst e2
          have hw : ¬ HalfWritten s := fun hw => noHalf0 hw _ hmem (.inr ⟨by simp, rfl⟩)
          have hptr := halfPtr p hmem
          subst hptr
          show Proper s.headers s.ptr s.len
          cases hp : s.ptrLeft with
          | none =>
            cases hl : s.lenLeft with
            | none => exact now hp hl
            | some x => exact absurd (.inl ⟨hp, by simp [hl]⟩) hw
          | some y =>
            cases hl : s.lenLeft with
            | none => exact absurd (.inr ⟨by simp [hp], hl⟩) hw
            | some x => exact (before y x hp hl).1
        · exact full p m hm
      · intro p hm
        rcases mem_set hm with hm | hm
        · injection hm with e1 e2; cases e2
        · exact halfPtr p hm
      · intro m hm
        rcases mem_set hm with hm | hm
        · injection hm with e1 e2; injection e2
        · exact halfLen m hm
    · exact ⟨now, before, ptrFirst, lenFirst, full, halfPtr, halfLen⟩

theorem wturn_headers (s : Racing) (t : WTurn) : ∀ v ∈ (wturn s t).headers, v ∈ s.headers ∨ v ∈ sessionHeaders [t] := by
  intro v hv
  cases t with
  | response w =>
    rw [wturn_response] at hv
    split at hv
    · rename_i hc
      rcases List.mem_append.1 hv with hv | hv
      · exact .inl hv
      · right; simp only [List.mem_singleton] at hv; subst hv; simp [sessionHeaders, hc.2.2]
    · exact .inl hv
  | storePtr => left; unfold wturn at hv; dsimp only at hv; split at hv <;> exact hv
  | storeLen => left; unfold wturn at hv; dsimp only at hv; split at hv <;> exact hv
  | enqueue => exact .inl hv
  | loadPtr i => left; unfold wturn at hv; dsimp only at hv; split at hv <;> exact hv
  | loadLen i => left; unfold wturn at hv; dsimp only at hv; split at hv <;> exact hv

theorem wturns_headers (s : Racing) (ts : List WTurn) : ∀ v ∈ (wturns s ts).headers, v ∈ s.headers ∨ v ∈ sessionHeaders ts := by
  induction ts using snoc_induct with
  | h0 => exact fun v hv => .inl hv
  | hs ts t ih =>
    intro v hv
    rw [wturns_snoc] at hv
    rw [sessionHeaders_snoc, List.mem_append]
    rcases wturn_headers _ _ v hv with h | h
    · rcases ih v h with h | h
      · exact .inl h
      · exact .inr (.inl h)
    · exact .inr (.inr h)

theorem unmixed_turns (ts : List WTurn) (hk : KeptApart {} ts) : Unmixed (wturns {} ts) := by
  induction ts using snoc_induct with
  | h0 => exact ⟨fun _ _ => .inl ⟨rfl, rfl⟩, nofun, nofun, nofun, nofun, nofun, nofun⟩
  | hs ts t ih =>
    have h0 := ih (fun p hp => hk p (hp.trans (List.prefix_append _ _)))
    have h1 := hk ts (List.prefix_append _ _)
    have h2 := hk (ts ++ [t]) (List.prefix_refl _)
    rw [wturns_snoc] at h2 ⊢
    exact h0.step t h1 h2

/-- **C128.** In a schedule in which no assignment to the session identifier overlaps with a reading of it, every request goes out with no identifier
or with the identifier of a Session header that the server sent. -/
theorem C128_apart_partial (ts : List WTurn) (i : Nat) (hk : KeptApart {} ts) (hi : Loaded (wturns {} ts) i) :
    (wturns {} ts).read i = some [] ∨ ∃ v ∈ sessionHeaders ts, (wturns {} ts).read i = some (identifier v) := by
  obtain ⟨p, l, hr⟩ := hi
  rcases ((unmixed_turns ts hk).full p l (List.mem_of_getElem? hr)).read hr with h | ⟨v, hv, h⟩
  · exact .inl h
  · right
    rcases wturns_headers _ _ v hv with hv | hv
    · cases hv
    · exact ⟨v, hv, h⟩

/-! ## Any schedule -/

/-- Pointers are `lo` or more and at headers there are; lengths have `L`. -/
structure Words (lo : Nat) (L : Nat → Prop) (s : Racing) : Prop where
  ptr : lo ≤ s.ptr ∧ s.ptr ≤ s.headers.length
  len : L s.len
  ptrLeft : ∀ p, s.ptrLeft = some p → lo ≤ p ∧ p ≤ s.headers.length
  lenLeft : ∀ l, s.lenLeft = some l → L l
  readPtr : ∀ p l, (some p, l) ∈ s.reads → lo ≤ p ∧ p ≤ s.headers.length
  readLen : ∀ p l, (p, some l) ∈ s.reads → L l

theorem Words.step {lo : Nat} {L : Nat → Prop} {s : Racing} (h : Words lo L s) (hlo : lo ≤ 1) (t : WTurn)
    (ht : ∀ v ∈ sessionHeaders [t], L (identifier v).length) : Words lo L (wturn s t) := by
  obtain ⟨ptr, len, ptrLeft, lenLeft, readPtr, readLen⟩ := h
  cases t with
  | response v =>
    rw [wturn_response]
    split
    · rename_i hc
      have grow : ∀ p, lo ≤ p ∧ p ≤ s.headers.length → lo ≤ p ∧ p ≤ (s.headers ++ [v]).length := by
        intro p hp; rw [List.length_append, List.length_singleton]; omega
      refine ⟨grow _ ptr, len, ?_, ?_, fun p l hm => grow _ (readPtr p l hm), readLen⟩
      · intro p hp
        injection hp with hp
        subst hp
        show _ ∧ _ ≤ (s.headers ++ [v]).length
        rw [List.length_append, List.length_singleton]; omega
      · intro l hl
        injection hl with hl
        subst hl
        exact ht v (by simp [sessionHeaders, hc.2.2])
    · exact ⟨ptr, len, ptrLeft, lenLeft, readPtr, readLen⟩
  | storePtr =>
    unfold wturn; dsimp only; split
    · rename_i p hp
      exact ⟨ptrLeft p hp, len, nofun, lenLeft, readPtr, readLen⟩
    · exact ⟨ptr, len, ptrLeft, lenLeft, readPtr, readLen⟩
  | storeLen =>
    unfold wturn; dsimp only; split
    · rename_i l hl
      exact ⟨ptr, lenLeft l hl, ptrLeft, nofun, readPtr, readLen⟩
    · exact ⟨ptr, len, ptrLeft, lenLeft, readPtr, readLen⟩
  | enqueue =>
    refine ⟨ptr, len, ptrLeft, lenLeft, ?_, ?_⟩
    · intro p l hm; rcases List.mem_append.1 hm with hm | hm
      · exact readPtr p l hm
      · simp at hm
    · intro p l hm; rcases List.mem_append.1 hm with hm | hm
      · exact readLen p l hm
      · simp at hm
  | loadPtr i =>
    unfold wturn; dsimp only; split
    · rename_i l hi
      have hmem := List.mem_of_getElem? hi
      refine ⟨ptr, len, ptrLeft, lenLeft, ?_, ?_⟩
      · intro p m hm; rcases mem_set hm with hm | hm
        · injection hm with e1 e2; injection e1 with e1; subst e1; exact ptr
        · exact readPtr p m hm
      · intro p m hm; rcases mem_set hm with hm | hm
        · injection hm with e1 e2; subst e2; exact readLen _ _ hmem
        · exact readLen p m hm
    · exact ⟨ptr, len, ptrLeft, lenLeft, readPtr, readLen⟩
  | loadLen i =>
    unfold wturn; dsimp only; split
    · rename_i q hi
      have hmem := List.mem_of_getElem? hi
      refine ⟨ptr, len, ptrLeft, lenLeft, ?_, ?_⟩
      · intro p m hm; rcases mem_set hm with hm | hm
        · injection hm with e1 e2; subst e1; exact readPtr _ _ hmem
        · exact readPtr p m hm
      · intro p m hm; rcases mem_set hm with hm | hm
        · injection hm with e1 e2; injection e2 with e2; subst e2; exact len
        · exact readLen p m hm
    · exact ⟨ptr, len, ptrLeft, lenLeft, readPtr, readLen⟩

theorem Words.run {lo : Nat} {L : Nat → Prop} {s : Racing} (h : Words lo L s) (hlo : lo ≤ 1) (ts : List WTurn)
    (ht : ∀ v ∈ sessionHeaders ts, L (identifier v).length) : Words lo L (wturns s ts) := by
  induction ts using snoc_induct with
  | h0 => exact h
  | hs ts t ih =>
    rw [wturns_snoc]
    rw [sessionHeaders_snoc] at ht
    exact (ih fun v hv => ht v (List.mem_append_left _ hv)).step hlo t fun v hv => ht v (List.mem_append_right _ hv)

theorem read_header {s : Racing} {i k l : Nat} {v : Bytes} (hr : s.reads[i]? = some (some (k + 1), some l)) (hv : s.headers[k]? = some v) :
    s.read i = if l ≤ v.length then some (v.take l) else none := by
  unfold Racing.read
  rw [hr]
  cases l with
  | zero => simp
  | succ n => simp only [hv]

/-- **C128.** Whatever the schedule: in a session whose identifier has been established, if all identifiers the server sends are of one length, every
request goes out with one of them. -/
theorem C128_length_partial (v : Bytes) (ts : List WTurn) (i : Nat)
    (hl : ∀ w ∈ sessionHeaders ts, (identifier w).length = (identifier v).length) (hi : Loaded (wturns (established v) ts) i) :
    ∃ w ∈ v :: sessionHeaders ts, (wturns (established v) ts).read i = some (identifier w) := by
  obtain ⟨p, l, hr⟩ := hi
  have hw : Words 1 (fun n => n = (identifier v).length) (wturns (established v) ts) := by
    refine Words.run ?_ (Nat.le_refl _) ts hl
    exact ⟨⟨Nat.le_refl _, Nat.le_refl _⟩, rfl, nofun, nofun, nofun, nofun⟩
  have hmem := List.mem_of_getElem? hr
  obtain ⟨hp1, hp2⟩ := hw.readPtr _ _ hmem
  have hlen : l = (identifier v).length := hw.readLen _ _ hmem
  obtain ⟨k, rfl⟩ : ∃ k, p = k + 1 := ⟨p - 1, by omega⟩
  have hk : (wturns (established v) ts).headers[k]? = some (wturns (established v) ts).headers[k] := List.getElem?_eq_getElem (by omega)
  have hin := List.mem_of_getElem? hk
  generalize (wturns (established v) ts).headers[k] = w at hk hin
  have hin' : w ∈ v :: sessionHeaders ts := by
    rcases wturns_headers _ _ w hin with h | h
    · simp only [established, List.mem_singleton] at h; simp [h]
    · exact List.mem_cons_of_mem _ h
  have hwl : (identifier w).length = (identifier v).length := by
    rcases List.mem_cons.1 hin' with h | h
    · rw [h]
    · exact hl w h
  refine ⟨w, hin', ?_⟩
  rw [read_header hr hk, hlen, ← hwl, if_pos (identifier_le w), ← identifier_prefix]

/-- **C128.** Whatever the schedule and the identifiers: a request goes out with as many bytes from the beginning of one Session header as the
identifier of one, perhaps another, has, or with bytes of no header. -/
theorem C128_words (ts : List WTurn) (i : Nat) (hi : Loaded (wturns {} ts) i) :
    (wturns {} ts).read i = none ∨
      ∃ v ∈ [] :: sessionHeaders ts, ∃ w ∈ [] :: sessionHeaders ts, (wturns {} ts).read i = some (v.take (identifier w).length) := by
  obtain ⟨p, l, hr⟩ := hi
  have hw : Words 0 (fun n => ∃ w ∈ [] :: sessionHeaders ts, n = (identifier w).length) (wturns {} ts) := by
    refine Words.run ?_ (Nat.zero_le _) ts fun v hv => ⟨v, List.mem_cons_of_mem _ hv, rfl⟩
    exact ⟨⟨Nat.le_refl _, Nat.le_refl _⟩, ⟨[], List.mem_cons_self, rfl⟩, nofun, nofun, nofun, nofun⟩
  have hmem := List.mem_of_getElem? hr
  obtain ⟨_, hp2⟩ := hw.readPtr _ _ hmem
  obtain ⟨w, hw1, rfl⟩ := hw.readLen _ _ hmem
  cases p with
  | zero =>
    unfold Racing.read
    rw [hr]
    cases (identifier w).length with
    | zero => exact .inr ⟨[], List.mem_cons_self, [], List.mem_cons_self, rfl⟩
    | succ n => exact .inl rfl
  | succ k =>
    have hk : (wturns {} ts).headers[k]? = some (wturns {} ts).headers[k] := List.getElem?_eq_getElem (by omega)
    have hin := List.mem_of_getElem? hk
    generalize (wturns {} ts).headers[k] = v at hk hin
    have hin' : v ∈ sessionHeaders ts := by
      rcases wturns_headers _ _ v hin with h | h
      · cases h
      · exact h
    rw [read_header hr hk]
    split
    · exact .inr ⟨v, List.mem_cons_of_mem _ hin', w, hw1, rfl⟩
    · exact .inl rfl

/-! ## What goes wrong -/

/-- `process` stores the pointer, a call loads both words, `process` stores the length. -/
def ptrEarly (w : Bytes) : List WTurn := [.response w, .storePtr, .enqueue, .loadPtr 0, .loadLen 0, .storeLen]
/-- `process` stores the length, a call loads both words, `process` stores the pointer. -/
def lenEarly (w : Bytes) : List WTurn := [.response w, .storeLen, .enqueue, .loadPtr 0, .loadLen 0, .storePtr]

theorem ptrEarly_run (v w : Bytes) (hw : w ≠ []) : wturns (established v) (ptrEarly w) =
    { headers := [v, w], ptr := 2, len := (identifier w).length, reads := [(some 2, some (identifier v).length)] } := by
  simp only [ptrEarly, wturns, List.foldl_cons, List.foldl_nil]
  rw [wturn_response]
  simp [established, hw, wturn]

theorem lenEarly_run (v w : Bytes) (hw : w ≠ []) : wturns (established v) (lenEarly w) =
    { headers := [v, w], ptr := 2, len := (identifier w).length, reads := [(some 1, some (identifier w).length)] } := by
  simp only [lenEarly, wturns, List.foldl_cons, List.foldl_nil]
  rw [wturn_response]
  simp [established, hw, wturn]

/-- A text of more bytes than the identifier of a header has, cut from it, is no identifier. -/
theorem cut_bad (v : Bytes) (n : Nat) (h : (identifier v).length < n) (hn : n ≤ v.length) : (59 : UInt8) ∈ v.take n := by
  have hs : v = identifier v ++ v.dropWhile (· ≠ 59) := (List.takeWhile_append_dropWhile).symm
  cases hd : v.dropWhile (· ≠ 59) with
  | nil => rw [hd, List.append_nil] at hs; rw [← hs] at h; omega
  | cons a t =>
    have ha : a = 59 := by
      have h1 := List.head?_dropWhile_not (· ≠ (59 : UInt8)) v
      rw [hd] at h1
      simpa using h1
    rw [hd, ha] at hs
    rw [hs, List.take_append, List.mem_append]
    right
    obtain ⟨m, hm⟩ : ∃ m, n - (identifier v).length = m + 1 := ⟨n - (identifier v).length - 1, by omega⟩
    rw [hm]
    simp

theorem identifier_clean (v : Bytes) : (59 : UInt8) ∉ identifier v := by
  intro h
  have := List.all_takeWhile (p := (· ≠ (59 : UInt8))) (l := v)
  rw [List.all_eq_true] at this
  simpa using this 59 h

/-- **C128.** The claim fails in every session in which the server changes to an identifier of another length: there is a schedule in which a request
goes out with a text that is not the identifier of any Session header whatever. -/
theorem C128_refuted (v w : Bytes) (hw : w ≠ []) (hl : (identifier w).length ≠ (identifier v).length) :
    ∃ ts, sessionHeaders ts = [w] ∧ Loaded (wturns (established v) ts) 0 ∧ ∀ u, (wturns (established v) ts).read 0 ≠ some (identifier u) := by
  have key : ∀ (s : Racing) (k n : Nat) (x : Bytes), s.reads[0]? = some (some (k + 1), some n) → s.headers[k]? = some x →
      (identifier x).length < n → ∀ u, s.read 0 ≠ some (identifier u) := by
    intro s k n x hr hx hn u he
    rw [read_header hr hx] at he
    split at he
    · rename_i hle
      injection he with he
      exact identifier_clean u (he ▸ cut_bad x n hn hle)
    · cases he
  rcases Nat.lt_or_gt_of_ne hl with h | h
  · refine ⟨ptrEarly w, by simp [ptrEarly, sessionHeaders, hw], ?_, ?_⟩
    · rw [ptrEarly_run v w hw]; exact ⟨_, _, rfl⟩
    · rw [ptrEarly_run v w hw]; exact key _ 1 _ w rfl rfl h
  · refine ⟨lenEarly w, by simp [lenEarly, sessionHeaders, hw], ?_, ?_⟩
    · rw [lenEarly_run v w hw]; exact ⟨_, _, rfl⟩
    · rw [lenEarly_run v w hw]; exact key _ 0 _ v rfl rfl h

/-- **C128.** Exactly the sessions whose server keeps to identifiers of one length are safe from it. -/
theorem C128_iff (v w : Bytes) (hw : w ≠ []) :
    (∀ ts i, sessionHeaders ts = [w] → Loaded (wturns (established v) ts) i → ∃ u ∈ [v, w], (wturns (established v) ts).read i = some (identifier u)) ↔
      (identifier w).length = (identifier v).length := by
  constructor
  · intro h
    refine Decidable.byContradiction fun hl => ?_
    obtain ⟨ts, h1, h2, h3⟩ := C128_refuted v w hw hl
    obtain ⟨u, _, h4⟩ := h ts 0 h1 h2
    exact h3 u h4
  · intro hl ts i h1 h2
    obtain ⟨u, hu, h⟩ := C128_length_partial v ts i (by rw [h1]; simpa using hl) h2
    rw [h1] at hu
    exact ⟨u, hu, h⟩

/-- **C128.** The first identifier is not safe either: whatever it is, there is a schedule in which a request goes out with bytes from nowhere. -/
theorem C128_first_refuted (w : Bytes) (hw : identifier w ≠ []) :
    ∃ ts, sessionHeaders ts = [w] ∧ Loaded (wturns {} ts) 0 ∧ (wturns {} ts).read 0 = none := by
  have hw' : w ≠ [] := by rintro rfl; exact hw rfl
  have e : wturns {} (lenEarly w) = { headers := [w], ptr := 1, len := (identifier w).length, reads := [(some 0, some (identifier w).length)] } := by
    simp only [lenEarly, wturns, List.foldl_cons, List.foldl_nil]
    rw [wturn_response]
    simp [hw', wturn]
  refine ⟨lenEarly w, by simp [lenEarly, sessionHeaders, hw'], ?_, ?_⟩
  · rw [e]; exact ⟨_, _, rfl⟩
  · rw [e]
    cases hi : identifier w with
    | nil => exact absurd hi hw
    | cons a t => rfl

/-! ## Cases -/

/-- Two identifiers, and requests before, between and after them. -/
def demoWords : List WTurn :=
  [.enqueue, .loadPtr 0, .loadLen 0, .response b!"12345678;timeout=60", .storePtr, .storeLen, .enqueue, .loadLen 1, .response b!"77", .loadPtr 1,
    .storeLen, .storePtr, .enqueue, .loadPtr 2, .loadLen 2]

example : KeptApart {} demoWords := by
  intro p hp
  obtain ⟨k, hk, rfl⟩ := prefix_take hp
  have h : ∀ k < 16, ¬ (let s := wturns {} (demoWords.take k)
      ((s.ptrLeft = none ∧ s.lenLeft ≠ none) ∨ (s.ptrLeft ≠ none ∧ s.lenLeft = none)) ∧
        s.reads.any fun r => decide ((r.1 = none ∧ r.2 ≠ none) ∨ (r.1 ≠ none ∧ r.2 = none))) := by decide +kernel
  intro hw ⟨r, hr, hx⟩
  exact h k hk ⟨hw, List.any_eq_true.2 ⟨r, hr, by simpa using hx⟩⟩
example : (List.range 3).map (wturns {} demoWords).read = [some [], some b!"12345678", some b!"77"] := by decide +kernel
example : ∀ i < 3, Loaded (wturns {} demoWords) i := by
  intro i hi
  have : i = 0 ∨ i = 1 ∨ i = 2 := by omega
  rcases this with rfl | rfl | rfl <;> exact ⟨_, _, rfl⟩
/-- Overlapping, of one length. -/
example : (wturns (established b!"12345678;timeout=60") (lenEarly b!"87654321")).read 0 = some b!"12345678" := by decide +kernel
/-- Overlapping, of other lengths: a text that no server sent, and one that is not there. -/
example : (wturns (established b!"12;timeout=60") (lenEarly b!"87654321")).read 0 = some b!"12;timeo" := by decide +kernel
example : (wturns (established b!"12") (lenEarly b!"87654321")).read 0 = none := by decide +kernel
example : (wturns (established b!"12345678") (ptrEarly b!"77;x=y;z=5")).read 0 = some b!"77;x=y;z" := by decide +kernel

end Ouro
