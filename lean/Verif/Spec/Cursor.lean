import Verif.Model.Types

/-! # Positions on a screen, independently of `Cursor`'s code -/

namespace Mortal.Spec

/-- `c` is a cell of the rectangle of the given size. -/
def InBounds (c : Cursor) (s : Size) : Prop := c.line < s.lines ∧ c.column < s.columns

/-- A size a `Size` value can hold: both fields are `usize`, neither is zero. -/
def GoodSize (s : Size) : Prop :=
  0 < s.lines ∧ 0 < s.columns ∧ s.lines ≤ usizeMax ∧ s.columns ≤ usizeMax

instance (c : Cursor) (s : Size) : Decidable (InBounds c s) := by unfold InBounds; infer_instance
instance (s : Size) : Decidable (GoodSize s) := by unfold GoodSize; infer_instance

/-- All cells of a screen in row-major order. -/
def rowMajor (s : Size) : List Cursor :=
  (List.range s.lines).flatMap fun l => (List.range s.columns).map fun c => ⟨l, c⟩

/-- Follow `step` from `c` until it yields nothing, at most `fuel` times, collecting the cells
passed. `none`: a panic, or not finished within the fuel. -/
def walk (step : Cursor → Panics (Option Cursor)) : Nat → Cursor → Option (List Cursor)
  | 0, _ => none
  | n + 1, c =>
    match step c with
    | none => none
    | some none => some [c]
    | some (some d) => (walk step n d).map (c :: ·)

end Mortal.Spec
