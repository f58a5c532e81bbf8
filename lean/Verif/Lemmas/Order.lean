import Mathlib.Data.List.Basic
import Mathlib.Data.List.Perm.Basic
/-! # When the order of parts that each say something does not matter -/
namespace Ouro

/-- The last thing said about `k`. -/
def lastSaid {α κ ν : Type} (tells : α → κ → Option ν) (l : List α) (k : κ) : Option ν := (l.filterMap (tells · k)).getLast?

theorem lastSaid_mem {α κ ν : Type} {tells : α → κ → Option ν} {l : List α} {k : κ} {v : ν} (h : lastSaid tells l k = some v) : ∃ a ∈ l, tells a k = some v := by
  have := List.mem_of_getLast? h
  exact List.mem_filterMap.1 this

theorem lastSaid_none {α κ ν : Type} {tells : α → κ → Option ν} {l : List α} {k : κ} (h : lastSaid tells l k = none) : ∀ a ∈ l, tells a k = none := by
  have := List.getLast?_eq_none_iff.1 h
  exact fun a ha => List.filterMap_eq_nil_iff.1 this a ha

theorem lastSaid_end {α κ ν : Type} {tells : α → κ → Option ν} (l : List α) {a : α} {k : κ} {v : ν} (h : tells a k = some v) : lastSaid tells (l ++ [a]) k = some v := by
  unfold lastSaid
  rw [List.filterMap_append, List.filterMap_cons, h]
  simp

theorem lastSaid_cons {α κ ν : Type} (tells : α → κ → Option ν) (a : α) (l : List α) (k : κ) (d : ν) :
    (lastSaid tells (a :: l) k).getD d = (lastSaid tells l k).getD ((tells a k).getD d) := by
  unfold lastSaid
  rw [List.filterMap_cons]
  cases tells a k with
  | none => rfl
  | some v =>
    dsimp only
    rw [List.getLast?_cons]
    cases (List.filterMap (tells · k) l).getLast? <;> rfl

/-- Parts may be put in any order exactly if no two of them disagree. -/
theorem order_iff {α κ ν : Type} (tells : α → κ → Option ν) (l : List α) :
    (∀ l', l'.Perm l → ∀ k, lastSaid tells l' k = lastSaid tells l k) ↔ ∀ a ∈ l, ∀ b ∈ l, ∀ k v w, tells a k = some v → tells b k = some w → v = w := by
  constructor
  · intro h
    have key : ∀ a ∈ l, ∀ k v, tells a k = some v → lastSaid tells l k = some v := by
      intro a ha k v hv
      obtain ⟨s, t, rfl⟩ := List.append_of_mem ha
      have hp : ((s ++ t) ++ [a]).Perm (s ++ a :: t) :=
        (List.perm_append_singleton a (s ++ t)).trans (List.perm_middle.symm)
      rw [← h _ hp k]
      exact lastSaid_end _ hv
    intro a ha b hb k v w hv hw
    have := (key a ha k v hv).symm.trans (key b hb k w hw)
    injection this
  · intro h l' hp k
    cases h1 : lastSaid tells l' k with
    | none =>
      cases h2 : lastSaid tells l k with
      | none => rfl
      | some w =>
        obtain ⟨b, hb, hw⟩ := lastSaid_mem h2
        rw [lastSaid_none h1 b (hp.symm.subset hb)] at hw
        cases hw
    | some v =>
      obtain ⟨a, ha, hv⟩ := lastSaid_mem h1
      cases h2 : lastSaid tells l k with
      | none =>
        rw [lastSaid_none h2 a (hp.subset ha)] at hv
        cases hv
      | some w =>
        obtain ⟨b, hb, hw⟩ := lastSaid_mem h2
        rw [h a (hp.subset ha) b hb k v w hv hw]

end Ouro
