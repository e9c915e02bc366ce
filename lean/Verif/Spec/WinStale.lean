import Verif.Spec.Stale
import Verif.Spec.WinShow

/-! # What successive refreshes leave on a Windows console -/

namespace Mortal.Spec
open Mortal

/-- A step as one of the steps of `Spec/Stale.lean`. -/
def WinStep.asGlass : WinStep → Option SStep
  | .draw op => some (.draw op)
  | .refresh => some .refresh
  | .resized size _ => some (.resized size (fun _ => .narrow [' '] .plain) none)
  | .other => none

/-- The console buffer shows a screen whose stale places, and only those, show a torn character:
any other place shows its content with its attributes, or the right half of the character in front of
it with the attributes of that character. -/
def ConGlass (u : UEnv) (default : BitVec 16) (o : OutBuf) (g : Glass) : Prop :=
  o.glyph.size = g.b.size ∧
  ∀ p c, InBounds p g.b.size → cellAt g.b p = some c →
    (Stale u g p → o.glyph.cell p = .torn) ∧
    (¬ RightHalf u g.b p → ¬ Stale u g p →
      o.glyph.cell p = glyphOf u c ∧ Dressed default (o.attr p) c) ∧
    (RightHalf u g.b p → o.glyph.cell p = .right ∧
      ∀ l, cellAt g.b ⟨p.line, p.column - 1⟩ = some l → Dressed default (o.attr p) l)

end Mortal.Spec
