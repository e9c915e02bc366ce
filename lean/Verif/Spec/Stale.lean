import Verif.Spec.Screen

/-! # What successive refreshes leave on a terminal

Stated without the screen: only the content asked for, the pictures on the glass, and the content each
place was last drawn with. -/

namespace Mortal.Spec
open Mortal

/-- The content asked for, what every place shows, and what every place was last drawn with since the
last change of size (if it was). -/
structure Glass where
  b : Buf
  shown : Cursor → TCell
  seen : Cursor → Option Cell

/-- A new, empty screen. It counts as drawn. -/
def Glass.new (z : Size) : Glass :=
  ⟨Buf.new z, fun _ => .narrow [' '] .plain, fun _ => some Cell.default⟩

/-- A place that is to hold what it was last drawn with, but shows what is left of a two-column
character that has covered it since. -/
def Stale (u : UEnv) (g : Glass) (p : Cursor) : Prop :=
  InBounds p g.b.size ∧ ¬ RightHalf u g.b p ∧ (g.shown p = .right ∨ g.shown p = .torn) ∧
    g.seen p = cellAt g.b p

open Classical in
/-- A refresh: a place behind a two-column character shows its right half and is not drawn. A stale
place is not drawn either and shows a torn character. Any other place shows its content. -/
noncomputable def Glass.refresh (u : UEnv) (g : Glass) : Glass :=
  ⟨g.b,
   fun p => if RightHalf u g.b p then .right else if Stale u g p then .torn
     else ((cellAt g.b p).map (picture u)).getD .torn,
   fun p => if RightHalf u g.b p then g.seen p else cellAt g.b p⟩

/-- One step. Drawing changes nothing on the glass; after a change of size nothing counts as drawn. -/
noncomputable def Glass.step (u : UEnv) (g : Glass) : SStep → Option Glass
  | .draw op => (op.run u g.b).map fun b => { g with b := b }
  | .refresh => some (g.refresh u)
  | .resized z _ _ => ((BufOp.resize z).run u g.b).map fun b => ⟨b, fun _ => .narrow [' '] .plain, fun _ => none⟩

/-- A sequence of steps. -/
noncomputable def Glass.run (u : UEnv) (g : Glass) : List SStep → Option Glass
  | [] => some g
  | st :: rest => (g.step u st).bind fun g' => g'.run u rest

/-- The conditions on a step: two-column characters fit, and no stale place is to hold one when a
refresh is made. -/
def TameStep (u : UEnv) (g : Glass) : SStep → Prop
  | .draw op => (∀ z, op ≠ .resize z) ∧ SafeOp u g.b op ∧ ThinMarks u (opText op)
  | .refresh => ∀ p c, Stale u g p → cellAt g.b p = some c → ¬ HoldsWide u c
  | .resized size cell _ =>
    ScreenSize size ∧ SafeOp u g.b (.resize size) ∧
    Term.Paired { size := size, cell := cell, cur := none, last := none, attrs := .plain }

/-- Every step meets its conditions in the state it runs in. -/
def TameRun (u : UEnv) : Glass → List SStep → Prop
  | _, [] => True
  | g, st :: rest => TameStep u g st ∧ ∀ g', g.step u st = some g' → TameRun u g' rest

end Mortal.Spec
