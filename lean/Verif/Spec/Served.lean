import Verif.Spec.Hls
import Verif.Model.Served
/-! # Specification: a playlist that is rendered while segments are added (C146) -/
namespace Ouro.Spec

/-- The text that shows these segments. -/
def playlistShowing {D : Type} (fmt : D → Bytes) (uri : Bytes) (segs : List (Listed D)) : Bytes := text (playlistLines fmt uri segs)

/-- A text is that of a moment: it shows the newest segments after all of `hist` and some of `more` were added. -/
def OfAMoment {D : Type} (fmt : D → Bytes) (uri : Bytes) (n : Nat) (hist more : List (D × Int)) (txt : Bytes) : Prop :=
  ∃ j ≤ more.length, txt = playlistShowing fmt uri (newest n (listed 0 (hist ++ more.take j)))

/-- A segment of which some fields are not yet filled in. -/
def PartlyFilled {D : Type} (zero : D) (whole x : Listed D) : Prop :=
  (x.duration = zero ∨ x.duration = whole.duration) ∧ (x.start = 0 ∨ x.start = whole.start) ∧ (x.length = 0 ∨ x.length = whole.length)

end Ouro.Spec
