import Verif.Model.Buffer
import Verif.Spec.Cursor

/-! # What drawing on a screen means, in terms of positions and cells -/

namespace Mortal.Spec

/-- The only facts assumed about the Unicode tables: a space is one column wide and is not a
combining mark. -/
structure SpaceOk (env : UEnv) : Prop where
  width : env.width ' ' = some 1
  comb : env.combining ' ' = false

/-- An ordinary character: one column wide, no control character, no combining mark. -/
structure Plain (env : UEnv) (ch : Char) : Prop where
  width : env.width ch = some 1
  comb : env.combining ch = false
  ctl : ch ∉ ['\r', '\n', '\t']

/-- An ordinary two-column character. -/
structure Wide (env : UEnv) (ch : Char) : Prop where
  width : env.width ch = some 2
  comb : env.combining ch = false
  ctl : ch ∉ ['\r', '\n', '\t']

/-- A combining mark. -/
structure Mark (env : UEnv) (ch : Char) : Prop where
  comb : env.combining ch = true
  ctl : ch ∉ ['\r', '\n', '\t']

/-- The cell at a position. -/
def cellAt (b : Buf) (c : Cursor) : Option Cell := b.buffer[c.line * b.size.columns + c.column]?

/-- The position `i` cells after the top left corner, in row-major order. -/
def posOf (s : Size) (i : Nat) : Cursor := ⟨i / s.columns, i % s.columns⟩

/-- The number of a position in row-major order. -/
def numOf (s : Size) (c : Cursor) : Nat := c.line * s.columns + c.column

/-- The cell holds (the left half of) a two-column character. -/
def HoldsWide (env : UEnv) (c : Cell) : Prop := ∃ ch rest, c.text = ch :: rest ∧ env.width ch = some 2

/-- Everything about the buffer except grid, cursor. -/
def SameFrame (b b' : Buf) : Prop :=
  b'.size = b.size ∧ b'.back = b.back ∧ b'.fg = b.fg ∧ b'.bg = b.bg ∧ b'.style = b.style

/-- All characters a call writes. -/
def opText : BufOp → List Char
  | .writeChar ch => [ch]
  | .writeStr s | .writeAt _ s | .writeStyled _ _ _ s | .writeStyledAt _ _ _ _ s => s
  | _ => []

/-- How often a call can move the cursor down explicitly. -/
def opNewlines : BufOp → Nat
  | .nextLine _ => 1
  | op => (opText op).count '\n'

/-- The largest line number a call names. -/
def opLine : BufOp → Nat
  | .setCursor c | .writeAt c _ | .writeStyledAt c _ _ _ _ => c.line
  | .resize s => s.lines
  | _ => 0

/-- The grid facts of C10. -/
structure GridOk (b : Buf) : Prop where
  size : GoodSize b.size
  len : b.buffer.length = b.size.lines * b.size.columns
  backLen : b.back.length = b.size.lines * b.size.columns
  text : ∀ c ∈ b.buffer, c.text ≠ []

/-- A small Unicode table used in examples: one wide character, one combining mark. -/
def demoEnv : UEnv where
  width ch := if ch = '世' then some 2 else if ch = '\u0301' then some 0
    else if ch.toNat < 32 ∨ (127 ≤ ch.toNat ∧ ch.toNat < 160) then none else some 1
  combining ch := ch = '\u0301'

/-- The column a tab leads to: the next multiple of eight, but not past the line end. -/
def tabTarget (columns column : Nat) : Nat := min columns ((column / 8 + 1) * 8)

/-- No half of a two-column character is missing: wherever a cell holds such a character, the cell
to its right exists on the same line and is its blank right half. -/
def NoTorn (env : UEnv) (b : Buf) : Prop :=
  ∀ c cell, InBounds c b.size → cellAt b c = some cell → HoldsWide env cell →
    c.column + 1 < b.size.columns ∧
    ∃ nxt, cellAt b ⟨c.line, c.column + 1⟩ = some nxt ∧ nxt.text.head? = some ' '

/-- No character of the text is wider than the screen, and none of width 2 is written when exactly
one column is left on the line. -/
def SafeText (env : UEnv) : Buf → List Char → Prop
  | _, [] => True
  | b, ch :: s =>
    env.w ch ≤ b.size.columns ∧
    ¬ (env.w ch = 2 ∧ InBounds b.cursor b.size ∧ b.size.columns < b.cursor.column + 2) ∧
    ∀ b', b.writeChar env ch = some (b', .ok) → SafeText env b' s

/-- `SafeText` for the text of a call; a resize must not cut a two-column character in half. -/
def SafeOp (env : UEnv) (b : Buf) : BufOp → Prop
  | .writeChar ch => SafeText env b [ch]
  | .writeStr s => SafeText env b s
  | .writeAt pos s => SafeText env { b with cursor := pos } s
  | .writeStyled fg bg st s => SafeText env { b with fg := fg, bg := bg, style := st } s
  | .writeStyledAt pos fg bg st s =>
    SafeText env { b with cursor := pos, fg := fg, bg := bg, style := st } s
  | .resize s => GoodSize s ∧
    ∀ c cell, InBounds c b.size → c.column + 1 = s.columns → cellAt b c = some cell →
      ¬ HoldsWide env cell
  | _ => True

/-- Every call of the history is safe in the state it runs in. -/
def SafeRun (env : UEnv) : Buf → List BufOp → Prop
  | _, [] => True
  | b, op :: ops => SafeOp env b op ∧ ∀ b', op.run env b = some b' → SafeRun env b' ops

/-- The colours and style asked for so far, given the next call. -/
def attrsAfter (a : Option Color × Option Color × Style) : BufOp →
    Option Color × Option Color × Style
  | .clearAttributes => (none, none, 0#8)
  | .addStyle s => (a.1, a.2.1, a.2.2 ||| s)
  | .removeStyle s => (a.1, a.2.1, a.2.2 &&& ~~~s)
  | .setStyle s => (a.1, a.2.1, s)
  | .setFg c => (c, a.2.1, a.2.2)
  | .setBg c => (a.1, c, a.2.2)
  | .setTheme t => (t.fg, t.bg, t.style)
  | .writeStyled .. => (none, none, 0#8)
  | .writeStyledAt .. => (none, none, 0#8)
  | _ => a

/-- No styled write of the history hits the end of the screen or is positioned outside it. -/
def NoStyledOverflow (env : UEnv) : Buf → List BufOp → Prop
  | _, [] => True
  | b, op :: ops =>
    (match op with
      | .writeStyled fg bg st s => ∃ b', b.writeStyled env fg bg st s = some (b', .ok)
      | .writeStyledAt pos fg bg st s => ∃ b', b.writeStyledAt env pos fg bg st s = some (b', .ok)
      | _ => True) ∧
    ∀ b', op.run env b = some b' → NoStyledOverflow env b' ops

/-- A character that occupies columns: not a line control, not a combining mark, width not zero. -/
structure Printable (env : UEnv) (ch : Char) : Prop where
  cr : ch ≠ '\r'
  lf : ch ≠ '\n'
  tab : ch ≠ '\t'
  comb : env.combining ch = false
  width : env.w ch ≠ 0

/-- How writing `text` with attributes `(fg, bg, st)` may change a cell: not at all; into one
showing a character of the text (or a space standing for a tab or for the right half of a
two-column character) with exactly these attributes; into a blank (when the other half of a
two-column character was overwritten); the last three possibly extended by combining marks of the
text. -/
inductive CellChange (env : UEnv) (fg bg : Option Color) (st : Style) (text : List Char)
    (old : Cell) : Cell → Prop
  | same : CellChange env fg bg st text old old
  | drawn (ch : Char) : (ch ∈ text ∧ Printable env ch) ∨ ch = ' ' →
      CellChange env fg bg st text old ⟨fg, bg, st, [ch]⟩
  | blank : CellChange env fg bg st text old ⟨none, none, 0#8, [' ']⟩
  | mark (c : Cell) (m : Char) : CellChange env fg bg st text old c → m ∈ text →
      env.combining m = true → CellChange env fg bg st text old { c with text := c.text ++ [m] }

end Mortal.Spec
