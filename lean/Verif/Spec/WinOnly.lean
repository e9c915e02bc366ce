import Verif.Spec.WinText
import Verif.Spec.Screen

/-! # Specification: what a refresh of a Windows screen writes -/

namespace Mortal.Spec

/-- No text is written to another screen buffer than `h`. -/
def WritesTo (h : Nat) (l : List WEv) : Prop :=
  ∀ h' us a, WEv.call (.write h' us) a ∈ l → h' = h

/-- The characters of the cell at a position. -/
def charsAt (b : Buf) (p : Cursor) : List Char := ((cellAt b p).map Cell.text).getD []

end Mortal.Spec
