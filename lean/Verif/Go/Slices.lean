import Verif.Go.Basic
/-!
# Go slices as references into arrays

Nothing here models code of /repo. A heap is a list of arrays; allocation adds one at the end, nothing is freed. A slice is a part of an
array with a capacity. `append` writes into the array as long as the capacity allows it and otherwise copies to a new array that may have
room for more elements: how much is up to `grow`.
-/
namespace Ouro

/-- The arrays. -/
abbrev Heap (α : Type) := List (List α)

/-- A slice: array, offset, length, capacity (from the offset). -/
structure Sl where
  arr : Nat
  off : Nat
  len : Nat
  cap : Nat
  deriving DecidableEq, Repr

/-- The elements of a slice. -/
def Sl.view {α : Type} (s : Sl) (h : Heap α) : List α := ((h.getD s.arr []).drop s.off).take s.len

/-- The slice lies inside its array. -/
structure Sl.WF {α : Type} (s : Sl) (h : Heap α) : Prop where
  cap : s.off + s.cap ≤ (h.getD s.arr []).length
  len : s.len ≤ s.cap

/-- Overwrite elements of an array from index `i` on. -/
def overwrite {α : Type} (a : List α) (i : Nat) (xs : List α) : List α := a.take i ++ xs ++ a.drop (i + xs.length)

/-- Overwrite elements of array `a`. -/
def Heap.write {α : Type} (h : Heap α) (a i : Nat) (xs : List α) : Heap α := h.set a (overwrite (h.getD a []) i xs)

/-- `make([]T, 0, cap)` -/
def Heap.make {α : Type} [Inhabited α] (h : Heap α) (cap : Nat) : Heap α × Sl := (h ++ [List.replicate cap default], ⟨h.length, 0, 0, cap⟩)

/-- `append(s, xs...)` -/
def Heap.append {α : Type} [Inhabited α] (grow : Nat → Nat) (h : Heap α) (s : Sl) (xs : List α) : Heap α × Sl :=
  if s.len + xs.length ≤ s.cap then (h.write s.arr (s.off + s.len) xs, { s with len := s.len + xs.length })
  else (h ++ [s.view h ++ xs ++ List.replicate (grow (s.len + xs.length)) default],
    ⟨h.length, 0, s.len + xs.length, s.len + xs.length + grow (s.len + xs.length)⟩)

/-- `s[lo:hi]` -/
def Sl.sub (s : Sl) (lo hi : Nat) : Go Sl :=
  if lo ≤ hi ∧ hi ≤ s.cap then .ok ⟨s.arr, s.off + lo, hi - lo, s.cap - lo⟩ else .error .slice

/-- `s[lo:]` -/
def Sl.from (s : Sl) (lo : Nat) : Go Sl := s.sub lo s.len

end Ouro
