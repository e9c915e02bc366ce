import Verif.Spec.Console

/-! # What cursor and erasing commands should do on a Windows console -/

namespace Mortal.Spec

/-- Nothing of the console differs but the records waiting and one screen buffer. -/
def OnlyBuffer (h : Nat) (c c' : Con) (o o' : OutBuf) : Prop :=
  c'.inMode = c.inMode ∧ c'.handlers = c.handlers ∧ c'.active = c.active ∧
  (∀ j, j ≠ h → c'.outs j = c.outs j) ∧ c.outs h = some o ∧ c'.outs h = some o'

/-- Nothing of the console differs but the records waiting. -/
def OnlyQueue (c c' : Con) : Prop :=
  c'.inMode = c.inMode ∧ c'.handlers = c.handlers ∧ c'.active = c.active ∧ c'.outs = c.outs

/-- Where the cursor is: known, or somewhere in the buffer. -/
def CursorIn (o : OutBuf) (p : Cursor) : Prop :=
  InBounds p o.glyph.size ∧ ∀ q, o.glyph.cur = some q → q = p

/-- The cursor goes to `p`; all else stays. (A mark that follows has no character to join.) -/
def CursorTo (p : Cursor) (o o' : OutBuf) : Prop :=
  o' = { o with glyph := { o.glyph with cur := some p, last := none } }

/-- The cell that holds the other half of a wide character. -/
def OtherHalf (o : OutBuf) (q h : Cursor) : Prop :=
  (∃ x, o.glyph.cell q = .left x () ∧ h = ⟨q.line, q.column + 1⟩) ∨
  (o.glyph.cell q = .right ∧ h = ⟨q.line, q.column - 1⟩)

/-- The cells of `R` become blanks with attribute word `w`. Other cells keep attribute and contents,
but for halves of wide characters of which the other half was erased (or not there). All else stays. -/
def Erased (R : Cursor → Prop) (w : BitVec 16) (o o' : OutBuf) : Prop :=
  o' = { o with glyph := { o.glyph with cell := o'.glyph.cell }, attr := o'.attr } ∧
  ∀ q, InBounds q o.glyph.size →
    (R q → o'.glyph.cell q = .narrow [' '] () ∧ o'.attr q = w) ∧
    (¬ R q → o'.attr q = o.attr q ∧
      ((∃ h, OtherHalf o q h ∧ (R h ∨ ¬ InBounds h o.glyph.size)) → o'.glyph.cell q = .torn) ∧
      (¬ (∃ h, OtherHalf o q h ∧ (R h ∨ ¬ InBounds h o.glyph.size)) →
        o'.glyph.cell q = o.glyph.cell q))

/-- As before, but for the attributes of the cells of `R`, which may be `w`. -/
def Recoloured (R : Cursor → Prop) (w : BitVec 16) (o o' : OutBuf) : Prop :=
  o' = { o with attr := o'.attr } ∧
  ∀ q, InBounds q o.glyph.size → o'.attr q = o.attr q ∨ (R q ∧ o'.attr q = w)

/-- The rest of the line, from `p` on. -/
def RestOfLine (p q : Cursor) : Prop := q.line = p.line ∧ p.column ≤ q.column

/-- The rest of the screen, from `p` on. -/
def RestOfScreen (p q : Cursor) : Prop := p.line < q.line ∨ RestOfLine p q

/-- A size a console buffer can have. -/
def BufSize (z : Size) : Prop :=
  1 ≤ z.lines ∧ z.lines ≤ 32767 ∧ 1 ≤ z.columns ∧ z.columns ≤ 32767

/-- A line the window shows. -/
def OutBuf.Shows (o : OutBuf) (q : Cursor) : Prop :=
  InBounds q o.glyph.size ∧ o.window.top ≤ q.line ∧ q.line ≤ o.window.bottom

/-- A blank cell. -/
def OutBuf.Blank (o : OutBuf) (q : Cursor) : Prop := o.glyph.cell q = .narrow [' '] ()

/-- The screen is clear: the window, as large as it was, shows only blank lines, and the cursor is in
its upper left corner. -/
def ClearWindow (o o' : OutBuf) : Prop :=
  o'.glyph.size = o.glyph.size ∧ o'.window.left = o.window.left ∧ o'.window.right = o.window.right ∧
  o'.window.bottom - o'.window.top = o.window.bottom - o.window.top ∧
  (∀ q, o'.Shows q → o'.Blank q) ∧
  ∃ p, o'.glyph.cur = some p ∧ (p.line : Int) = o'.window.top ∧ (p.column : Int) = o'.window.left

/-- The height of the window. -/
def OutBuf.height (o : OutBuf) : Int := o.window.bottom - o.window.top + 1

end Mortal.Spec
