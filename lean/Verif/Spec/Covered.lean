/-! # What a list written over shows -/
namespace Ouro.Spec

/-- `old`, after `new` has been written over it from the beginning; what does not fit is lost. -/
def covered {α : Type} (old new : List α) : List α := new.take old.length ++ old.drop new.length

/-- `old`, with room for `room`, after the lists have been written over it one after another. A list that does not fit in the room is moved elsewhere, with
all that follow it: before it moves it has filled the room. -/
def coveredBy {α : Type} (room : Nat) (old : List α) : List (List α) → List α
  | [] => old
  | new :: more => if new.length ≤ room then coveredBy room (covered old new) more else covered old new

end Ouro.Spec
