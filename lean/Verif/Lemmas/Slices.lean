import Verif.Go.Slices
/-! # Slices -/
namespace Ouro

theorem overwrite_length {α : Type} {a : List α} {i : Nat} {xs : List α} (h : i + xs.length ≤ a.length) : (overwrite a i xs).length = a.length := by
  unfold overwrite; simp; omega

theorem overwrite_nil {α : Type} (a : List α) (i : Nat) : overwrite a i [] = a := by simp [overwrite]

theorem overwrite_view {α : Type} {a : List α} {o n : Nat} {xs : List α} (h : o + n + xs.length ≤ a.length) :
    ((overwrite a (o + n) xs).drop o).take (n + xs.length) = (a.drop o).take n ++ xs := by
  unfold overwrite
  have e1 : (a.take (o + n) ++ xs ++ a.drop (o + n + xs.length)).drop o = (a.drop o).take n ++ xs ++ a.drop (o + n + xs.length) := by
    rw [List.append_assoc, List.drop_append_of_le_length (by simp; omega), List.drop_take, show o + n - o = n by omega, List.append_assoc]
  rw [e1]
  apply List.take_left'
  simp; omega

theorem view_length {α : Type} {s : Sl} {h : Heap α} (w : s.WF h) : (s.view h).length = s.len := by
  unfold Sl.view
  have := w.cap; have := w.len
  rw [List.length_take, List.length_drop]; omega

theorem view_empty {α : Type} {s : Sl} {h : Heap α} (h0 : s.len = 0) : s.view h = [] := by
  unfold Sl.view; rw [h0]; rfl

theorem getD_append_left {α : Type} (h t : Heap α) {a : Nat} (ha : a < h.length) : (h ++ t).getD a [] = h.getD a [] := by
  simp [List.getD, List.getElem?_append_left ha]

theorem getD_prefix {α : Type} {h h' : Heap α} (hp : h <+: h') {a : Nat} (ha : a < h.length) : h'.getD a [] = h.getD a [] := by
  obtain ⟨t, rfl⟩ := hp; exact getD_append_left h t ha

theorem WF.inside {α : Type} {s : Sl} {h : Heap α} (w : s.WF h) : s.cap = 0 ∨ s.arr < h.length := by
  rcases Nat.lt_or_ge s.arr h.length with h1 | h1
  · exact .inr h1
  · have := w.cap
    rw [List.getD_eq_getElem?_getD, List.getElem?_eq_none h1] at this
    simp at this
    exact .inl this.2

theorem view_prefix {α : Type} {h h' : Heap α} (hp : h <+: h') {s : Sl} (w : s.WF h) : s.view h' = s.view h := by
  rcases WF.inside w with h0 | h0
  · have : s.len = 0 := by have := w.len; omega
    rw [view_empty this, view_empty this]
  · unfold Sl.view; rw [getD_prefix hp h0]

/-- A larger heap keeps slices in order. An empty one at the place of a new array may get an offset that is too large for it only if it
has one. -/
theorem wf_prefix {α : Type} {h h' : Heap α} (hp : h <+: h') {s : Sl} (w : s.WF h) : s.WF h' := by
  refine ⟨?_, w.len⟩
  rcases Nat.lt_or_ge s.arr h.length with h1 | h1
  · rw [getD_prefix hp h1]; exact w.cap
  · have := w.cap
    rw [List.getD_eq_getElem?_getD, List.getElem?_eq_none h1] at this
    simp at this
    omega

theorem getD_write {α : Type} (h : Heap α) (a i : Nat) (xs : List α) (b : Nat) :
    (h.write a i xs).getD b [] = if b = a ∧ a < h.length then overwrite (h.getD a []) i xs else h.getD b [] := by
  unfold Heap.write
  simp only [List.getD_eq_getElem?_getD, List.getElem?_set]
  by_cases hb : b = a
  · subst hb
    by_cases hl : b < h.length
    · simp [hl]
    · simp [hl]
  · rw [if_neg (Ne.symm hb), if_neg (by simp [hb])]

theorem write_nil {α : Type} (h : Heap α) (a i : Nat) : h.write a i [] = h := by
  unfold Heap.write
  rw [overwrite_nil]
  apply List.ext_getElem?
  intro b
  rw [List.getElem?_set]
  split
  · next e => subst e; split
              · next hl => simp [List.getD_eq_getElem?_getD, hl]
              · next hl => rw [List.getElem?_eq_none (by omega)]
  · rfl

/-- What `append` gives. -/
structure Appended {α : Type} (h : Heap α) (s : Sl) (xs : List α) (h' : Heap α) (s' : Sl) : Prop where
  view : s'.view h' = s.view h ++ xs
  wf : s'.WF h'
  len : s'.len = s.len + xs.length
  size : h.length ≤ h'.length
  arr : s'.arr = s.arr ∧ s'.cap = s.cap ∧ h'.length = h.length ∨ s'.arr = h.length
  others : ∀ a, a < h.length → (a = s.arr → s.cap = 0) → h'.getD a [] = h.getD a []

theorem append_spec {α : Type} [Inhabited α] (g : Nat → Nat) {h : Heap α} {s : Sl} (w : s.WF h) (xs : List α) :
    Appended h s xs (h.append g s xs).1 (h.append g s xs).2 := by
  have wc := w.cap
  have wl := w.len
  unfold Heap.append
  split
  · next hc =>
    by_cases hin : s.arr < h.length
    · have e : (h.write s.arr (s.off + s.len) xs).getD s.arr [] = overwrite (h.getD s.arr []) (s.off + s.len) xs := by
        rw [getD_write, if_pos ⟨rfl, hin⟩]
      refine ⟨?_, ⟨?_, ?_⟩, rfl, ?_, .inl ⟨rfl, rfl, ?_⟩, ?_⟩
      · unfold Sl.view
        dsimp only
        rw [e, overwrite_view (by omega)]
      · dsimp only; rw [e, overwrite_length (by omega)]; exact wc
      · exact hc
      · simp [Heap.write]
      · simp [Heap.write]
      · intro a ha hs
        rw [getD_write]
        split
        · next hx =>
          have h0 := hs hx.1
          have : xs = [] := List.length_eq_zero_iff.1 (by omega)
          rw [this, overwrite_nil, hx.1]
        · rfl
    · have h0 : s.cap = 0 := (WF.inside w).resolve_right hin
      have : xs = [] := List.length_eq_zero_iff.1 (by omega)
      subst this
      simp only [write_nil]
      exact ⟨by simp [Sl.view], ⟨wc, by simpa using wl⟩, rfl, Nat.le_refl _, .inl ⟨rfl, rfl, rfl⟩, fun a _ _ => rfl⟩
  · next hc =>
    have e : (h ++ [s.view h ++ xs ++ List.replicate (g (s.len + xs.length)) default]).getD h.length [] =
        s.view h ++ xs ++ List.replicate (g (s.len + xs.length)) default := by
      simp [List.getD_eq_getElem?_getD]
    have hv := view_length w
    refine ⟨?_, ⟨?_, ?_⟩, rfl, ?_, .inr rfl, ?_⟩
    · show List.take (s.len + xs.length) (List.drop 0 (List.getD (h ++ [s.view h ++ xs ++ List.replicate (g (s.len + xs.length)) default]) h.length [])) = _
      rw [e, List.drop_zero]
      exact List.take_left' (by simp [hv])
    · dsimp only; rw [e]; simp [hv]; omega
    · dsimp only; omega
    · simp
    · intro a ha _; exact getD_append_left _ _ ha

/-- Two computations that panic alike or give related results. -/
def Same {A B : Type} (R : A → B → Prop) : Go A → Go B → Prop
  | .ok a, .ok b => R a b
  | .error p, .error q => p = q
  | _, _ => False

theorem Same.cases {A B : Type} {R : A → B → Prop} {x : Go A} {y : Go B} (h : Same R x y) :
    (∃ p, x = .error p ∧ y = .error p) ∨ ∃ a b, x = .ok a ∧ y = .ok b ∧ R a b := by
  cases x with
  | error p => cases y with
    | error q => have h : p = q := h; exact .inl ⟨p, rfl, by rw [h]⟩
    | ok b => exact h.elim
  | ok a => cases y with
    | error q => exact h.elim
    | ok b => exact .inr ⟨a, b, rfl, rfl, h⟩

theorem Same.mono {A B : Type} {R S : A → B → Prop} {x : Go A} {y : Go B} (h : Same R x y) (hi : ∀ a b, R a b → S a b) : Same S x y := by
  cases x with
  | error p => cases y with
    | error q => exact h
    | ok b => exact h
  | ok a => cases y with
    | error q => exact h
    | ok b => exact hi a b h

/-- A part of a slice. -/
structure Part {α : Type} (h : Heap α) (s t : Sl) (v : List α) : Prop where
  view : t.view h = v
  wf : t.WF h
  arr : t.arr = s.arr
  cap : s.cap = 0 → t.cap = 0

theorem sub_view {α : Type} {s : Sl} {h : Heap α} (w : s.WF h) {lo hi : Nat} (hh : hi ≤ s.len) :
    Same (Part h s) (s.sub lo hi) (slice (s.view h) lo hi) := by
  have wc := w.cap
  have wl := w.len
  unfold Sl.sub slice
  rw [view_length w]
  by_cases hlo : lo ≤ hi
  · rw [if_pos ⟨hlo, by omega⟩, if_pos ⟨hlo, hh⟩]
    refine ⟨?_, ⟨?_, ?_⟩, rfl, ?_⟩
    · unfold Sl.view
      dsimp only
      rw [List.take_take, Nat.min_eq_left hh, List.drop_take, List.drop_drop]
    · dsimp only; omega
    · dsimp only; omega
    · dsimp only; omega
  · rw [if_neg (by omega), if_neg (by omega)]
    rfl

theorem from_view {α : Type} {s : Sl} {h : Heap α} (w : s.WF h) {lo : Nat} :
    Same (Part h s) (s.from lo) (sliceFrom (s.view h) lo) := by
  have := sub_view w (lo := lo) (Nat.le_refl s.len)
  have hv := view_length w
  unfold Sl.from
  have e : slice (s.view h) lo s.len = sliceFrom (s.view h) lo := by
    unfold slice sliceFrom
    rw [hv]
    by_cases hl : lo ≤ s.len
    · rw [if_pos ⟨hl, Nat.le_refl _⟩, if_pos hl, List.take_of_length_le (by omega)]
    · rw [if_neg (by omega), if_neg hl]
  rw [e] at this
  exact this

/-- Nobody else's array. -/
def Sl.Own (Q : Nat → Prop) (s : Sl) : Prop := s.cap = 0 ∨ Q s.arr

theorem Part.own {α : Type} {h : Heap α} {s t : Sl} {v : List α} {Q : Nat → Prop} (p : Part h s t v) (o : s.Own Q) : t.Own Q := by
  rcases o with o | o
  · exact .inl (p.cap o)
  · exact .inr (by rw [p.arr]; exact o)

theorem prefix_of_getD {α : Type} {h h' : Heap α} (hl : h.length ≤ h'.length) (he : ∀ a, a < h.length → h'.getD a [] = h.getD a []) : h <+: h' := by
  rw [List.prefix_iff_eq_take]
  apply List.ext_getElem?
  intro a
  rw [List.getElem?_take]
  split
  · next ha =>
    have := he a ha
    rw [List.getD_eq_getElem?_getD, List.getD_eq_getElem?_getD, List.getElem?_eq_getElem ha, List.getElem?_eq_getElem (by omega : a < h'.length)] at this
    rw [List.getElem?_eq_getElem ha, List.getElem?_eq_getElem (by omega : a < h'.length)]
    simp at this
    rw [this]
  · next ha => exact List.getElem?_eq_none (by omega)

/-- Appending to a slice above `h0` leaves `h0` as it is. -/
theorem Appended.above {α : Type} {h0 h h' : Heap α} {s s' : Sl} {xs : List α} (ap : Appended h s xs h' s') (hp : h0 <+: h) (ho : s.Own (h0.length ≤ ·)) :
    h0 <+: h' ∧ s'.Own (h0.length ≤ ·) := by
  have hl : h0.length ≤ h.length := hp.length_le
  constructor
  · refine prefix_of_getD (Nat.le_trans hl ap.size) fun a ha => ?_
    rw [ap.others a (by omega) (fun e => ?_), getD_prefix hp ha]
    rcases ho with ho | ho
    · exact ho
    · omega
  · rcases ap.arr with ⟨e1, e2, _⟩ | e
    · rcases ho with ho | ho
      · exact .inl (e2.trans ho)
      · exact .inr (by rw [e1]; exact ho)
    · exact .inr (by rw [e]; exact hl)

theorem make_spec {α : Type} [Inhabited α] (h : Heap α) (n : Nat) :
    h <+: (h.make n).1 ∧ (h.make n).2.WF (h.make n).1 ∧ (h.make n).2.view (h.make n).1 = [] ∧ (h.make n).2.Own (h.length ≤ ·) := by
  refine ⟨List.prefix_append _ _, ⟨?_, Nat.zero_le _⟩, view_empty rfl, .inr (Nat.le_refl _)⟩
  show 0 + n ≤ ((h ++ [List.replicate n default]).getD h.length []).length
  simp [List.getD_eq_getElem?_getD]

end Ouro
