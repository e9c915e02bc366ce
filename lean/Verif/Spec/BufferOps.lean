import Verif.Spec.Buffer

/-! # What the drawing calls that write no text should do, position by position -/

namespace Mortal.Spec

/-- What can be told about a screen's buffer: its size, the cell at every position (none outside), the
cursor, the attributes in force. -/
structure Pic where
  size : Size
  cell : Cursor → Option Cell
  cursor : Cursor
  fg : Option Color
  bg : Option Color
  style : Style

/-- The picture of a buffer. -/
def picOf (b : Buf) : Pic where
  size := b.size
  cell c := if InBounds c b.size then cellAt b c else none
  cursor := b.cursor
  fg := b.fg
  bg := b.bg
  style := b.style

/-- What a call that writes no text should make of a picture; nothing if its result cannot be
expressed. Calls that write text are left out. -/
def Pic.after (p : Pic) : BufOp → Option Pic
  | .setCursor pos => some { p with cursor := pos }
  | .nextLine column =>
    if p.cursor.line + 1 < 2 ^ 64 then some { p with cursor := ⟨p.cursor.line + 1, column⟩ } else none
  | .clearScreen => some { p with cell := fun c => if InBounds c p.size then some ⟨none, none, 0#8, [' ']⟩ else none }
  | .clearAttributes => some { p with fg := none, bg := none, style := 0#8 }
  | .addStyle s => some { p with style := p.style ||| s }
  | .removeStyle s => some { p with style := p.style &&& ~~~s }
  | .setStyle s => some { p with style := s }
  | .setFg c => some { p with fg := c }
  | .setBg c => some { p with bg := c }
  | .setTheme t => some { p with fg := t.fg, bg := t.bg, style := t.style }
  | .resize s => some { p with
      size := s
      cell := fun c => if InBounds c s then
          (if InBounds c p.size then p.cell c else some ⟨none, none, 0#8, [' ']⟩)
        else none }
  | _ => none

/-- The call writes no text, and a resize is to a proper size. -/
def NoText : BufOp → Prop
  | .writeChar _ | .writeStr _ | .writeAt _ _ | .writeStyled _ _ _ _ | .writeStyledAt _ _ _ _ _ => False
  | .resize s => GoodSize s
  | _ => True

end Mortal.Spec
