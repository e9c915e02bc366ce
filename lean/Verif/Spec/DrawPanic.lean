import Verif.Spec.Screen

/-!
# The calls that make a drawing panic

Exactly when a call on a screen's buffer panics: a line number overflows, or a two-column character is
written on the last but one line of a screen of one column.
-/

namespace Mortal.Spec

/-- Writing `ch` at `c` panics. -/
def BreaksAt (u : UEnv) (s : Size) (c : Cursor) (ch : Char) : Prop :=
  (ch = '\n' ∧ usizeMax ≤ c.line) ∨
  (u.w ch = 2 ∧ u.combining ch = false ∧ ch ∉ ['\r', '\n', '\t'] ∧ s.columns = 1 ∧ c.column = 0 ∧
    c.line + 2 = s.lines)

/-- A character of the text panics, and the text before it can be written. -/
def BreaksText (u : UEnv) (b : Buf) (s : List Char) : Prop :=
  ∃ pre ch post b', s = pre ++ ch :: post ∧ b.writeStr u pre = some (b', .ok) ∧
    BreaksAt u b'.size b'.cursor ch

/-- A call panics. -/
def Breaks (u : UEnv) (b : Buf) : BufOp → Prop
  | .nextLine _ => usizeMax ≤ b.cursor.line
  | .writeChar ch => BreaksText u b [ch]
  | .writeStr s => BreaksText u b s
  | .writeAt p s => InBounds p b.size ∧ BreaksText u { b with cursor := p } s
  | .writeStyled fg bg st s => BreaksText u { b with fg := fg, bg := bg, style := st } s
  | .writeStyledAt p fg bg st s => InBounds p b.size ∧
      BreaksText u { b with cursor := p, fg := fg, bg := bg, style := st } s
  | _ => False

end Mortal.Spec
